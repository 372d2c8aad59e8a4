/-
Marketplace v1: the key-value store (C106).
-/
import Verif.V1.Store
import Verif.V1.PropsQueryMore
import Verif.V1.Sample
import Verif.Base.KvList

namespace Verif.V1
open Verif Kv

/-! ### C106: records, indexes and namespaces -/

namespace Spec

/-- Token ids are `u32`, prices `Uint128`, times `u64`. -/
def _root_.Verif.V1.Write.Typed : Write → Prop
  | .ask k a => k.2 < 2^32 ∧ a.price < 2^128
  | .rmAsk k => k.2 < 2^32
  | .bid k b => k.2.1 < 2^32 ∧ b.tokenId < 2^32 ∧ b.price < 2^128 ∧ b.expiresAt < 2^64
  | .rmBid k => k.2.1 < 2^32
  | .cbid _ b => b.price < 2^128 ∧ b.expiresAt < 2^64
  | _ => True

/-- The contract together with its key-value store: each call makes some of the writes of its handlers, on both. -/
inductive OnStore (p : Params) : State → Raw → Prop where
  | init {i : Init} {s : State} {r : Raw} {name version : Bytes} (h : instantiate p i = .ok s)
      (hr : rawInit name version s.params i.saleHook = some r) : OnStore p s r
  | call {s s' : State} {r r' : Raw} {ctx : Ctx} {sender : Addr} {funds : List Coin} {m : Exec} {msgs : List Msg} {ws : List Write}
      (hs : OnStore p s r) (h : execute p ctx sender funds m s = .ok (s', msgs)) (ht : ∀ w ∈ ws, w.Typed)
      (hw : s' = ws.foldl Write.app s) (hr : rawAll ws r = some r') : OnStore p s' r'
  | sudo {s s' : State} {r r' : Raw} {ctx : Ctx} {m : Sudo} {msgs : List Msg} {ws : List Write}
      (hs : OnStore p s r) (h : sudo p ctx m s = .ok (s', msgs)) (ht : ∀ w ∈ ws, w.Typed)
      (hw : s' = ws.foldl Write.app s) (hr : rawAll ws r = some r') : OnStore p s' r'
  | migrate {s : State} {r r' : Raw} {name version : Bytes} (hs : OnStore p s r) (hr : rawAll [.version name version] r = some r') :
      OnStore p s r'

/-- The cells a state must have. -/
inductive CellOf (s : State) : Bytes → Cell → Prop where
  | params : CellOf s (str "sudo-params") (.params s.params)
  | ask (c : Addr) (t : Nat) (a : Ask) (h : s.asks.get? (c, t) = some a) : CellOf s (comp (str "asks") ++ (comp c ++ be 4 t)) (.ask a)
  | askColl (c : Addr) (t : Nat) (a : Ask) (h : s.asks.get? (c, t) = some a) :
      CellOf s (comp (str "asks__collection") ++ (comp a.collection ++ (comp c ++ be 4 t))) (.len (comp c ++ be 4 t).length)
  | askPrice (c : Addr) (t : Nat) (a : Ask) (h : s.asks.get? (c, t) = some a) :
      CellOf s (comp (str "asks__collection_price") ++ (comp a.collection ++ (comp (be 16 a.price) ++ (comp c ++ be 4 t))))
        (.len (comp c ++ be 4 t).length)
  | askSeller (c : Addr) (t : Nat) (a : Ask) (h : s.asks.get? (c, t) = some a) :
      CellOf s (comp (str "asks__seller") ++ (comp a.seller ++ (comp c ++ be 4 t))) (.len (comp c ++ be 4 t).length)
  | bid (c : Addr) (t : Nat) (x : Addr) (b : Bid) (h : s.bids.get? (c, t, x) = some b) :
      CellOf s (comp (str "bids") ++ (comp c ++ (comp (be 4 t) ++ x))) (.bid b)
  | bidColl (c : Addr) (t : Nat) (x : Addr) (b : Bid) (h : s.bids.get? (c, t, x) = some b) :
      CellOf s (comp (str "bids__collection") ++ (comp b.collection ++ (comp c ++ (comp (be 4 t) ++ x))))
        (.len (comp c ++ (comp (be 4 t) ++ x)).length)
  | bidToken (c : Addr) (t : Nat) (x : Addr) (b : Bid) (h : s.bids.get? (c, t, x) = some b) :
      CellOf s (comp (str "bids__collection_token_id") ++ (comp b.collection ++ (comp (be 4 b.tokenId) ++ (comp c ++ (comp (be 4 t) ++ x)))))
        (.len (comp c ++ (comp (be 4 t) ++ x)).length)
  | bidPrice (c : Addr) (t : Nat) (x : Addr) (b : Bid) (h : s.bids.get? (c, t, x) = some b) :
      CellOf s (comp (str "bids__collection_price") ++ (comp b.collection ++ (comp (be 16 b.price) ++ (comp c ++ (comp (be 4 t) ++ x)))))
        (.len (comp c ++ (comp (be 4 t) ++ x)).length)
  | bidBidder (c : Addr) (t : Nat) (x : Addr) (b : Bid) (h : s.bids.get? (c, t, x) = some b) :
      CellOf s (comp (str "bids__bidder") ++ (comp b.bidder ++ (comp c ++ (comp (be 4 t) ++ x))))
        (.len (comp c ++ (comp (be 4 t) ++ x)).length)
  | bidExpiry (c : Addr) (t : Nat) (x : Addr) (b : Bid) (h : s.bids.get? (c, t, x) = some b) :
      CellOf s (comp (str "bids__bidder_expires_at") ++
          (comp b.bidder ++ (comp (be 8 (b.expiresAt / 10^9)) ++ (comp c ++ (comp (be 4 t) ++ x)))))
        (.len (comp c ++ (comp (be 4 t) ++ x)).length)
  | cbid (c x : Addr) (b : CBid) (h : s.cbids.get? (c, x) = some b) : CellOf s (comp (str "col_bids") ++ (comp c ++ x)) (.cbid b)
  | cbidColl (c x : Addr) (b : CBid) (h : s.cbids.get? (c, x) = some b) :
      CellOf s (comp (str "col_bids__collection") ++ (comp b.collection ++ (comp c ++ x))) (.len (comp c ++ x).length)
  | cbidPrice (c x : Addr) (b : CBid) (h : s.cbids.get? (c, x) = some b) :
      CellOf s (comp (str "col_bids__collection_price") ++ (comp b.collection ++ (comp (be 16 b.price) ++ (comp c ++ x))))
        (.len (comp c ++ x).length)
  | cbidBidder (c x : Addr) (b : CBid) (h : s.cbids.get? (c, x) = some b) :
      CellOf s (comp (str "col_bids__bidder") ++ (comp b.bidder ++ (comp c ++ x))) (.len (comp c ++ x).length)
  | cbidExpiry (c x : Addr) (b : CBid) (h : s.cbids.get? (c, x) = some b) :
      CellOf s (comp (str "col_bids__bidder_expires_at") ++ (comp b.bidder ++ (comp (be 8 (b.expiresAt / 10^9)) ++ (comp c ++ x))))
        (.len (comp c ++ x).length)

/-- Arguments of a call that become parts of keys have the types of its message, and strings have less than 65536 bytes. -/
def _root_.Verif.V1.Exec.Sized (sender : Addr) (funds : List Coin) : Exec → Prop
  | .setAsk _ coll tok price _ _ _ _ => coll.length < 65536 ∧ tok < 2^32 ∧ price.amount < 2^128 ∧ sender.length < 65536
  | .updateAskPrice _ _ price => price.amount < 2^128
  | .setBid coll tok expires _ _ _ =>
    coll.length < 65536 ∧ tok < 2^32 ∧ expires < 2^64 ∧ sender.length < 65536 ∧ ∀ c ∈ funds, c.amount < 2^128
  | .buyNow coll tok expires _ _ =>
    coll.length < 65536 ∧ tok < 2^32 ∧ expires < 2^64 ∧ sender.length < 65536 ∧ ∀ c ∈ funds, c.amount < 2^128
  | .buyFor coll tok expires _ _ _ =>
    coll.length < 65536 ∧ tok < 2^32 ∧ expires < 2^64 ∧ sender.length < 65536 ∧ ∀ c ∈ funds, c.amount < 2^128
  | .setCollectionBid coll expires _ => coll.length < 65536 ∧ expires < 2^64 ∧ sender.length < 65536 ∧ ∀ c ∈ funds, c.amount < 2^128
  | .acceptCollectionBid _ tok _ _ => tok < 2^32
  | _ => True

end Spec
open Spec

/-! Declarations -/

def askDom (k : AskKey) : Prop := k.2 < 2^32
def bidDom (k : BidKey) : Prop := k.2.1 < 2^32

theorem askGood : askTable.Good askDom where
  dec _ := rfl
  unlen _ := rfl
  ne _ := by simp [askTable]
  pkLen _ _ := rfl
  pkInj k k' hk hk' h := by
    simp only [askTable, List.cons.injEq, and_true] at h
    exact Prod.ext h.1 (be_inj hk hk' h.2)
  keyLen ix h v v' := by
    simp only [askTable, List.mem_cons, List.not_mem_nil, or_false] at h
    rcases h with rfl | rfl | rfl <;> rfl
  pkNs ix h := by
    simp only [askTable, List.mem_cons, List.not_mem_nil, or_false] at h
    rcases h with rfl | rfl | rfl <;> rfl
  short := by decide +kernel
  last := by decide +kernel
  distinct := by decide +kernel

theorem bidGood : bidTable.Good bidDom where
  dec _ := rfl
  unlen _ := rfl
  ne _ := by simp [bidTable]
  pkLen _ _ := rfl
  pkInj k k' hk hk' h := by
    simp only [bidTable, List.cons.injEq, and_true] at h
    exact Prod.ext h.1 (Prod.ext (be_inj hk hk' h.2.1) h.2.2)
  keyLen ix h v v' := by
    simp only [bidTable, List.mem_cons, List.not_mem_nil, or_false] at h
    rcases h with rfl | rfl | rfl | rfl | rfl <;> rfl
  pkNs ix h := by
    simp only [bidTable, List.mem_cons, List.not_mem_nil, or_false] at h
    rcases h with rfl | rfl | rfl | rfl | rfl <;> rfl
  short := by decide +kernel
  last := by decide +kernel
  distinct := by decide +kernel

theorem cbidGood : cbidTable.Good (fun _ => True) where
  dec _ := rfl
  unlen _ := rfl
  ne _ := by simp [cbidTable]
  pkLen _ _ := rfl
  pkInj k k' _ _ h := by
    simp only [cbidTable, List.cons.injEq, and_true] at h
    exact Prod.ext h.1 h.2
  keyLen ix h v v' := by
    simp only [cbidTable, List.mem_cons, List.not_mem_nil, or_false] at h
    rcases h with rfl | rfl | rfl | rfl <;> rfl
  pkNs ix h := by
    simp only [cbidTable, List.mem_cons, List.not_mem_nil, or_false] at h
    rcases h with rfl | rfl | rfl | rfl <;> rfl
  short := by decide +kernel
  last := by decide +kernel
  distinct := by decide +kernel

/-- namespaces of all tables -/
def allSpaces : List Bytes := askTable.spaces ++ bidTable.spaces ++ cbidTable.spaces

/-- keys of all items -/
def itemKeys : List Bytes :=
  [paramsKey, HookList.key .ask, HookList.key .bid, HookList.key .sale, HookList.key .cbid, versionKey]

theorem item_ne : ∀ k ∈ itemKeys, ∀ u, k ≠ 0 :: u := by
  have : ∀ k ∈ itemKeys, k.head? ≠ some 0 := by decide +kernel
  intro k hk; exact ne_zero (this k hk)

theorem hook_item (h : HookList) : h.key ∈ itemKeys := by cases h <;> simp [itemKeys]

/-- the item a write goes to -/
def Write.item : Write → Option (Bytes × Cell)
  | .params c => some (paramsKey, .params c)
  | .hooks h l => some (h.key, .hooks l)
  | .version n v => some (versionKey, .version n v)
  | _ => none

/-- a list of hooks, perhaps never written -/
def HookAt (r : Raw) (s : State) (h : HookList) : Prop := r.get? h.key = some (.hooks (h.get s)) ∨ (r.get? h.key = none ∧ h.get s = [])

/-- The store holds the state, and nothing but its records and index entries (parameters apart). -/
structure Part (r : Raw) (s : State) : Prop where
  hooks : ∀ h, HookAt r s h
  asks : askTable.Rep askDom r s.asks
  bids : bidTable.Rep bidDom r s.bids
  cbids : cbidTable.Rep (fun _ => True) r s.cbids
  askOk : ∀ k a, s.asks.get? k = some a → a.price < 2^128
  bidOk : ∀ k b, s.bids.get? k = some b → b.tokenId < 2^32 ∧ b.price < 2^128 ∧ b.expiresAt < 2^64
  cbidOk : ∀ k b, s.cbids.get? k = some b → b.price < 2^128 ∧ b.expiresAt < 2^64
  rest : ∀ b c, r.get? b = some c → b ∈ itemKeys ∨ ∃ n ∈ allSpaces, ∃ u, b = comp n ++ u

structure Holds (r : Raw) (s : State) : Prop extends Part r s where
  params : r.get? paramsKey = some (.params s.params)

theorem a1 : ∀ n ∈ askTable.spaces, n.length < 256 := by decide +kernel
theorem a2 : ∀ n ∈ bidTable.spaces, n.length < 256 := by decide +kernel
theorem a3 : ∀ n ∈ cbidTable.spaces, n.length < 256 := by decide +kernel

/-- Items after a write. -/
theorem item_write {r r' : Raw} {w : Write} (hw : w.raw r = some r') {b : Bytes} (hb : b ∈ itemKeys) :
    r'.get? b = match w.item with
      | some (k, c) => if k = b then some c else r.get? b
      | none => r.get? b := by
  have hz := item_ne b hb
  cases w with
  | params c => cases hw; simp only [Write.item, AMap.get?_insert, eq_comm]
  | hooks h l => cases hw; simp only [Write.item, AMap.get?_insert, eq_comm]
  | version n v => cases hw; simp only [Write.item, AMap.get?_insert, eq_comm]
  | ask k a => exact save_frame askGood hw (outside_item a1 hz)
  | rmAsk k => exact remove_frame askGood hw (outside_item a1 hz)
  | bid k b => exact save_frame bidGood hw (outside_item a2 hz)
  | rmBid k => exact remove_frame bidGood hw (outside_item a2 hz)
  | cbid k b => exact save_frame cbidGood hw (outside_item a3 hz)
  | rmCBid k => exact remove_frame cbidGood hw (outside_item a3 hz)

theorem hook_keys {h h' : HookList} (e : h.key = h'.key) : h = h' := by
  revert e; cases h <;> cases h' <;> decide +kernel

theorem get_set (s : State) (l : List Addr) (h h' : HookList) : h'.get (h.set s l) = if h = h' then l else h'.get s := by
  cases h <;> cases h' <;> rfl

theorem hook_write {r r' : Raw} {s : State} {w : Write} (h : HookList) (hr : HookAt r s h) (hw : w.raw r = some r') :
    HookAt r' (w.app s) h := by
  unfold HookAt at hr ⊢
  rw [item_write hw (hook_item h)]
  cases w with
  | hooks h' l =>
    simp only [Write.item, Write.app, get_set]
    by_cases e : h' = h
    · subst e; left; simp
    · have : ¬ h'.key = h.key := fun e' => e (hook_keys e')
      simp only [if_neg this, if_neg e]; exact hr
  | params c =>
    have : ¬ paramsKey = h.key := by cases h <;> decide +kernel
    simp only [Write.item, if_neg this, Write.app]
    cases h <;> exact hr
  | version n v =>
    have : ¬ versionKey = h.key := by cases h <;> decide +kernel
    simp only [Write.item, if_neg this, Write.app]
    cases h <;> exact hr
  | _ => cases h <;> exact hr

theorem params_write {r r' : Raw} {s : State} {w : Write} (h : r.get? paramsKey = some (.params s.params)) (hw : w.raw r = some r') :
    r'.get? paramsKey = some (.params (w.app s).params) := by
  rw [item_write hw (by simp [itemKeys])]
  cases w with
  | params c => simp [Write.item, Write.app]
  | hooks h' l =>
    have : ¬ h'.key = paramsKey := by cases h' <;> decide +kernel
    simp only [Write.item, if_neg this]
    cases h' <;> exact h
  | version n v =>
    have : ¬ versionKey = paramsKey := by decide +kernel
    simp only [Write.item, if_neg this]
    exact h
  | _ => exact h

theorem Part.write {r r' : Raw} {s : State} (h : Part r s) {w : Write} (ht : w.Typed) (hw : w.raw r = some r') :
    Part r' (w.app s) := by
  have d1 : ∀ n ∈ askTable.spaces, n.length < 65536 := askGood.short
  have d2 : ∀ n ∈ bidTable.spaces, n.length < 65536 := bidGood.short
  have d3 : ∀ n ∈ cbidTable.spaces, n.length < 65536 := cbidGood.short
  have hh : ∀ x, HookAt r' (w.app s) x := fun x => hook_write x (h.hooks x) hw
  have tab : ∀ (ns : List Bytes), (∀ n ∈ ns, n ∈ allSpaces) → (∀ b, Outside ns b → r'.get? b = r.get? b) →
      ∀ b c, r'.get? b = some c → b ∈ itemKeys ∨ ∃ n ∈ allSpaces, ∃ u, b = comp n ++ u := by
    intro ns hns hf b c hb
    by_cases ho : Outside ns b
    · rw [hf b ho] at hb; exact h.rest b c hb
    · right
      unfold Outside at ho
      simp only [Classical.not_forall] at ho
      obtain ⟨n, hn, u, hu⟩ := ho
      exact ⟨n, hns n hn, u, Classical.not_not.mp hu⟩
  have item : ∀ (k : Bytes) (c : Cell), k ∈ itemKeys → r' = r.insert k c → askTable.Rep askDom r' s.asks ∧
      bidTable.Rep bidDom r' s.bids ∧ cbidTable.Rep (fun _ => True) r' s.cbids ∧
      ∀ b c, r'.get? b = some c → b ∈ itemKeys ∨ ∃ n ∈ allSpaces, ∃ u, b = comp n ++ u := by
    intro k c hk e
    subst e
    refine ⟨h.asks.item a1 (item_ne k hk) _, h.bids.item a2 (item_ne k hk) _, h.cbids.item a3 (item_ne k hk) _, ?_⟩
    intro b c' hb
    rw [AMap.get?_insert] at hb
    split at hb
    · rename_i e'; subst e'; exact Or.inl hk
    · exact h.rest b c' hb
  cases w with
  | params c =>
    obtain ⟨h1, h2, h3, h4⟩ := item paramsKey (.params c) (by simp [itemKeys]) (by cases hw; rfl)
    exact ⟨hh, h1, h2, h3, h.askOk, h.bidOk, h.cbidOk, h4⟩
  | hooks x l =>
    obtain ⟨h1, h2, h3, h4⟩ := item x.key (.hooks l) (hook_item x) (by cases hw; rfl)
    cases x <;> exact ⟨hh, h1, h2, h3, h.askOk, h.bidOk, h.cbidOk, h4⟩
  | version n v =>
    obtain ⟨h1, h2, h3, h4⟩ := item versionKey (.version n v) (by simp [itemKeys]) (by cases hw; rfl)
    exact ⟨hh, h1, h2, h3, h.askOk, h.bidOk, h.cbidOk, h4⟩
  | ask k a =>
    have hf := fun b => save_frame askGood hw (b := b)
    exact ⟨hh, h.asks.save askGood ht.1 hw, h.bids.other bidGood d1 (by decide +kernel) hf,
      h.cbids.other cbidGood d1 (by decide +kernel) hf, insert_mem (P := fun _ (a : Ask) => a.price < 2^128) h.askOk ht.2,
      h.bidOk, h.cbidOk, tab _ (by decide +kernel) hf⟩
  | rmAsk k =>
    have hf := fun b => remove_frame askGood hw (b := b)
    exact ⟨hh, h.asks.remove askGood ht hw, h.bids.other bidGood d1 (by decide +kernel) hf,
      h.cbids.other cbidGood d1 (by decide +kernel) hf, erase_mem (P := fun _ (a : Ask) => a.price < 2^128) h.askOk,
      h.bidOk, h.cbidOk, tab _ (by decide +kernel) hf⟩
  | bid k b =>
    have hf := fun b => save_frame bidGood hw (b := b)
    exact ⟨hh, h.asks.other askGood d2 (by decide +kernel) hf, h.bids.save bidGood ht.1 hw,
      h.cbids.other cbidGood d2 (by decide +kernel) hf, h.askOk,
      insert_mem (P := fun _ (b : Bid) => b.tokenId < 2^32 ∧ b.price < 2^128 ∧ b.expiresAt < 2^64) h.bidOk ht.2,
      h.cbidOk, tab _ (by decide +kernel) hf⟩
  | rmBid k =>
    have hf := fun b => remove_frame bidGood hw (b := b)
    exact ⟨hh, h.asks.other askGood d2 (by decide +kernel) hf, h.bids.remove bidGood ht hw,
      h.cbids.other cbidGood d2 (by decide +kernel) hf, h.askOk,
      erase_mem (P := fun _ (b : Bid) => b.tokenId < 2^32 ∧ b.price < 2^128 ∧ b.expiresAt < 2^64) h.bidOk,
      h.cbidOk, tab _ (by decide +kernel) hf⟩
  | cbid k b =>
    have hf := fun b => save_frame cbidGood hw (b := b)
    exact ⟨hh, h.asks.other askGood d3 (by decide +kernel) hf, h.bids.other bidGood d3 (by decide +kernel) hf,
      h.cbids.save cbidGood trivial hw, h.askOk, h.bidOk,
      insert_mem (P := fun _ (b : CBid) => b.price < 2^128 ∧ b.expiresAt < 2^64) h.cbidOk ht, tab _ (by decide +kernel) hf⟩
  | rmCBid k =>
    have hf := fun b => remove_frame cbidGood hw (b := b)
    exact ⟨hh, h.asks.other askGood d3 (by decide +kernel) hf, h.bids.other bidGood d3 (by decide +kernel) hf,
      h.cbids.remove cbidGood trivial hw, h.askOk, h.bidOk,
      erase_mem (P := fun _ (b : CBid) => b.price < 2^128 ∧ b.expiresAt < 2^64) h.cbidOk, tab _ (by decide +kernel) hf⟩

theorem Holds.writes {ws : List Write} : ∀ {r r' : Raw} {s : State}, Holds r s → (∀ w ∈ ws, w.Typed) → rawAll ws r = some r' →
    Holds r' (ws.foldl Write.app s) := by
  induction ws with
  | nil => intro r r' s h _ hr; cases hr; exact h
  | cons w ws ih =>
    intro r r' s h ht hr
    unfold rawAll at hr
    cases hw : w.raw r with
    | none => rw [hw] at hr; cases hr
    | some r1 =>
      rw [hw, Option.bind_some] at hr
      exact ih ⟨h.toPart.write (ht w (by simp)) hw, params_write h.params hw⟩ (fun x hx => ht x (by simp [hx])) hr

theorem Holds.init {p : Params} {i : Init} {s : State} {r : Raw} {name version : Bytes}
    (h : instantiate p i = .ok s) (hr : rawInit name version s.params i.saleHook = some r) : Holds r s := by
  simp only [instantiate, bind_ok] at h
  obtain ⟨_, _, _, _, _, _, _, _, _, _, _, _, ops, _, hooks, hh, h⟩ := h
  cases h
  generalize hc : SudoParams.mk _ _ _ _ _ _ _ _ _ = c at *
  let s0 : State := { params := c, asks := .empty, bids := .empty, cbids := .empty, askHooks := [], bidHooks := [], saleHooks := [], cbidHooks := [] }
  have h0 : Part .empty s0 := ⟨fun h => Or.inr ⟨by simp, by cases h <;> rfl⟩, .empty, .empty, .empty, fun k a h => by simp [s0] at h,
    fun k a h => by simp [s0] at h, fun k a h => by simp [s0] at h, fun b c h => by simp at h⟩
  have e1 : ((Write.version name version).raw .empty).bind (fun r => (Write.params c).raw r) =
      some ((AMap.empty.insert versionKey (.version name version)).insert paramsKey (.params c)) := rfl
  have p1 : Part (AMap.empty.insert versionKey (.version name version)) s0 := h0.write (w := .version name version) trivial rfl
  have p2 : Holds ((AMap.empty.insert versionKey (.version name version)).insert paramsKey (.params c)) s0 :=
    ⟨p1.write (w := .params c) trivial rfl, by simp [s0]⟩
  cases hs : i.saleHook with
  | none =>
    rw [hs] at hr hh
    cases hh
    cases hr
    exact p2
  | some x =>
    rw [hs] at hr hh
    simp only [bind_ok, addrValidate_ok, addHook, ensure_ok] at hh
    obtain ⟨_, ⟨_, rfl⟩, _, _, hh⟩ := hh
    cases hh
    have hr2 : rawAll [.hooks .sale [x]] ((AMap.empty.insert versionKey (.version name version)).insert paramsKey (.params c)) = some r := hr
    exact p2.writes (by intro w hw; simp at hw; subst hw; trivial) hr2

theorem Spec.OnStore.holds {p : Params} {s : State} {r : Raw} (h : OnStore p s r) : Holds r s := by
  induction h with
  | init h hr => exact Holds.init h hr
  | call hs h ht hw hr ih => rw [hw]; exact ih.writes ht hr
  | sudo hs h ht hw hr ih => rw [hw]; exact ih.writes ht hr
  | migrate hs hr ih => exact ih.writes (ws := [.version _ _]) (by intro w hw; simp at hw; subst hw; trivial) hr

/-- The store has exactly the cells of the state (besides the contract version and the lists of hooks). -/
theorem C106_cells {p : Params} {s : State} {r : Raw} (h : OnStore p s r) {b : Bytes} {c : Cell}
    (hb : b ∉ [str "contract_info", str "ask-hooks", str "bid-hooks", str "sale-hooks", str "collection-bid-hooks"]) :
    r.get? b = some c ↔ CellOf s b c := by
  have H := h.holds
  constructor
  · intro hc
    rcases H.rest b c hc with h1 | ⟨n, hn, u, rfl⟩
    · simp only [itemKeys, List.mem_cons, List.not_mem_nil, or_false] at h1
      rcases h1 with rfl | rfl | rfl | rfl | rfl | rfl
      · rw [H.params] at hc; cases hc; exact .params
      all_goals exact absurd (by decide +kernel) hb
    · simp only [allSpaces, List.mem_append] at hn
      rcases hn with (hn | hn) | hn
      · simp only [Table.spaces, askTable, List.map_cons, List.map_nil, List.mem_cons, List.not_mem_nil, or_false] at hn
        rcases hn with rfl | rfl | rfl | rfl
        · obtain ⟨k, v, h1, rfl, rfl⟩ := (H.asks.prim u c).mp hc
          exact .ask k.1 k.2 v h1
        · obtain ⟨k, v, h1, rfl, rfl⟩ := (H.asks.idx askCollIx (by simp [askTable]) u c).mp hc
          exact .askColl k.1 k.2 v h1
        · obtain ⟨k, v, h1, rfl, rfl⟩ := (H.asks.idx askPriceIx (by simp [askTable]) u c).mp hc
          exact .askPrice k.1 k.2 v h1
        · obtain ⟨k, v, h1, rfl, rfl⟩ := (H.asks.idx askSellerIx (by simp [askTable]) u c).mp hc
          exact .askSeller k.1 k.2 v h1
      · simp only [Table.spaces, bidTable, List.map_cons, List.map_nil, List.mem_cons, List.not_mem_nil, or_false] at hn
        rcases hn with rfl | rfl | rfl | rfl | rfl | rfl
        · obtain ⟨k, v, h1, rfl, rfl⟩ := (H.bids.prim u c).mp hc
          exact .bid k.1 k.2.1 k.2.2 v h1
        · obtain ⟨k, v, h1, rfl, rfl⟩ := (H.bids.idx bidCollIx (by simp [bidTable]) u c).mp hc
          exact .bidColl k.1 k.2.1 k.2.2 v h1
        · obtain ⟨k, v, h1, rfl, rfl⟩ := (H.bids.idx bidTokenIx (by simp [bidTable]) u c).mp hc
          exact .bidToken k.1 k.2.1 k.2.2 v h1
        · obtain ⟨k, v, h1, rfl, rfl⟩ := (H.bids.idx bidPriceIx (by simp [bidTable]) u c).mp hc
          exact .bidPrice k.1 k.2.1 k.2.2 v h1
        · obtain ⟨k, v, h1, rfl, rfl⟩ := (H.bids.idx bidBidderIx (by simp [bidTable]) u c).mp hc
          exact .bidBidder k.1 k.2.1 k.2.2 v h1
        · obtain ⟨k, v, h1, rfl, rfl⟩ := (H.bids.idx bidExpiryIx (by simp [bidTable]) u c).mp hc
          exact .bidExpiry k.1 k.2.1 k.2.2 v h1
      · simp only [Table.spaces, cbidTable, List.map_cons, List.map_nil, List.mem_cons, List.not_mem_nil, or_false] at hn
        rcases hn with rfl | rfl | rfl | rfl | rfl
        · obtain ⟨k, v, h1, rfl, rfl⟩ := (H.cbids.prim u c).mp hc
          exact .cbid k.1 k.2 v h1
        · obtain ⟨k, v, h1, rfl, rfl⟩ := (H.cbids.idx cbidCollIx (by simp [cbidTable]) u c).mp hc
          exact .cbidColl k.1 k.2 v h1
        · obtain ⟨k, v, h1, rfl, rfl⟩ := (H.cbids.idx cbidPriceIx (by simp [cbidTable]) u c).mp hc
          exact .cbidPrice k.1 k.2 v h1
        · obtain ⟨k, v, h1, rfl, rfl⟩ := (H.cbids.idx cbidBidderIx (by simp [cbidTable]) u c).mp hc
          exact .cbidBidder k.1 k.2 v h1
        · obtain ⟨k, v, h1, rfl, rfl⟩ := (H.cbids.idx cbidExpiryIx (by simp [cbidTable]) u c).mp hc
          exact .cbidExpiry k.1 k.2 v h1
  · intro hc
    cases hc with
    | params => exact H.params
    | ask c t v h1 => exact (H.asks.prim _ _).mpr ⟨_, v, h1, rfl, rfl⟩
    | askColl c t v h1 => exact (H.asks.idx askCollIx (by simp [askTable]) _ _).mpr ⟨_, v, h1, rfl, rfl⟩
    | askPrice c t v h1 => exact (H.asks.idx askPriceIx (by simp [askTable]) _ _).mpr ⟨_, v, h1, rfl, rfl⟩
    | askSeller c t v h1 => exact (H.asks.idx askSellerIx (by simp [askTable]) _ _).mpr ⟨_, v, h1, rfl, rfl⟩
    | bid c t x v h1 => exact (H.bids.prim _ _).mpr ⟨_, v, h1, rfl, rfl⟩
    | bidColl c t x v h1 => exact (H.bids.idx bidCollIx (by simp [bidTable]) _ _).mpr ⟨_, v, h1, rfl, rfl⟩
    | bidToken c t x v h1 => exact (H.bids.idx bidTokenIx (by simp [bidTable]) _ _).mpr ⟨_, v, h1, rfl, rfl⟩
    | bidPrice c t x v h1 => exact (H.bids.idx bidPriceIx (by simp [bidTable]) _ _).mpr ⟨_, v, h1, rfl, rfl⟩
    | bidBidder c t x v h1 => exact (H.bids.idx bidBidderIx (by simp [bidTable]) _ _).mpr ⟨_, v, h1, rfl, rfl⟩
    | bidExpiry c t x v h1 => exact (H.bids.idx bidExpiryIx (by simp [bidTable]) _ _).mpr ⟨_, v, h1, rfl, rfl⟩
    | cbid c x v h1 => exact (H.cbids.prim _ _).mpr ⟨_, v, h1, rfl, rfl⟩
    | cbidColl c x v h1 => exact (H.cbids.idx cbidCollIx (by simp [cbidTable]) _ _).mpr ⟨_, v, h1, rfl, rfl⟩
    | cbidPrice c x v h1 => exact (H.cbids.idx cbidPriceIx (by simp [cbidTable]) _ _).mpr ⟨_, v, h1, rfl, rfl⟩
    | cbidBidder c x v h1 => exact (H.cbids.idx cbidBidderIx (by simp [cbidTable]) _ _).mpr ⟨_, v, h1, rfl, rfl⟩
    | cbidExpiry c x v h1 => exact (H.cbids.idx cbidExpiryIx (by simp [cbidTable]) _ _).mpr ⟨_, v, h1, rfl, rfl⟩

/-- Records are read back from the store. -/
theorem C106_reads {p : Params} {s : State} {r : Raw} (h : OnStore p s r) :
    kvParams r = some (queryParams s) ∧
    kvHooks r .ask = s.askHooks ∧ kvHooks r .bid = s.bidHooks ∧ kvHooks r .sale = s.saleHooks ∧ kvHooks r .cbid = s.cbidHooks ∧
    (∀ c tok, c.length < 65536 → tok < 2^32 → askTable.load r (c, tok) = queryAsk s c tok) ∧
    (∀ c tok x, c.length < 65536 → tok < 2^32 → bidTable.load r (c, tok, x) = queryBid s c tok x) ∧
    (∀ c x, c.length < 65536 → cbidTable.load r (c, x) = queryCollectionBid s c x) := by
  have H := h.holds
  have hk : ∀ x : HookList, kvHooks r x = x.get s := by
    intro x
    unfold kvHooks
    rcases H.hooks x with e | ⟨e, e'⟩
    · rw [e]
    · rw [e, e']
  refine ⟨by unfold kvParams; rw [H.params]; rfl, hk .ask, hk .bid, hk .sale, hk .cbid, fun c tok hc ht => H.asks.load askGood ht ?_,
    fun c tok x hc ht => H.bids.load bidGood ht ?_, fun c x hc => H.cbids.load cbidGood trivial ?_⟩
  · simp [askTable, fits, hc]; decide +kernel
  · simp [bidTable, fits, hc, be_length]; decide +kernel
  · simp [cbidTable, fits, hc]; decide +kernel

/-! Listings -/

theorem Part.askFit {r : Raw} {s : State} (H : Part r s) {k : AskKey} {a : Ask} (h : s.asks.get? k = some a) :
    k.1.length < 65536 ∧ k.2 < 2^32 ∧ a.collection.length < 65536 ∧ a.seller.length < 65536 := by
  obtain ⟨f1, f2⟩ := H.asks.fit k a h
  have p1 := okay_prim f2
  have p2 := okay_idx f2 (ix := askCollIx) (by simp [askTable])
  have p3 := okay_idx f2 (ix := askSellerIx) (by simp [askTable])
  rw [fits_append (askGood.ne k)] at p2 p3
  have p1' : fits [askTable.ns, k.1, be 4 k.2] = true := p1
  simp only [fits, Bool.and_eq_true, decide_eq_true_eq] at p1'
  exact ⟨p1'.2.1, f1, p2.1 _ (by simp [askCollIx]), p3.1 _ (by simp [askSellerIx])⟩

theorem Part.bidFit {r : Raw} {s : State} (H : Part r s) {k : BidKey} {b : Bid} (h : s.bids.get? k = some b) :
    k.1.length < 65536 ∧ k.2.1 < 2^32 := by
  obtain ⟨f1, f2⟩ := H.bids.fit k b h
  have p1 : fits [bidTable.ns, k.1, be 4 k.2.1, k.2.2] = true := okay_prim f2
  simp only [fits, Bool.and_eq_true, decide_eq_true_eq] at p1
  exact ⟨p1.2.1, f1⟩

theorem Part.cbidFit {r : Raw} {s : State} (H : Part r s) {k : CBidKey} {b : CBid} (h : s.cbids.get? k = some b) :
    k.1.length < 65536 := by
  obtain ⟨f1, f2⟩ := H.cbids.fit k b h
  have p1 : fits [cbidTable.ns, k.1, k.2] = true := okay_prim f2
  simp only [fits, Bool.and_eq_true, decide_eq_true_eq] at p1
  exact p1.2.1

end Verif.V1

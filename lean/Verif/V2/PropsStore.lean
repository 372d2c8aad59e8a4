/-
Marketplace v2: the key-value store (C104).
-/
import Verif.V2.Store
import Verif.V2.Eff
import Verif.V2.Sample
import Verif.Base.KvList

namespace Verif.V2
open Verif Kv

/-! ### C104: records, indexes and namespaces -/

namespace Spec

/-- Amounts are `Uint128`. -/
def _root_.Verif.V2.Write.Typed : Write → Prop
  | .ask a => a.details.price.amount < 2^128
  | .bid b => b.details.price.amount < 2^128
  | .cbid b => b.details.price.amount < 2^128
  | _ => True

/-- The contract together with its key-value store: each call makes some of the writes of its handlers, on both. -/
inductive Stored (p : Params) : State → Raw → Prop where
  | init {c : Config} {s : State} {r : Raw} {name version : Bytes} (h : instantiate p c = .ok s)
      (hr : rawInit name version s.config = some r) : Stored p s r
  | call {s s' : State} {r r' : Raw} {ctx : Ctx} {sender : Addr} {funds : List Coin} {m : Exec} {msgs : List Msg} {ws : List Write}
      (hs : Stored p s r) (h : execute p ctx sender funds m s = .ok (s', msgs)) (ht : ∀ w ∈ ws, w.Typed)
      (hw : s' = ws.foldl Write.app s) (hr : rawAll ws r = some r') : Stored p s' r'
  | migrate {s : State} {r r' : Raw} {name version : Bytes} (hs : Stored p s r) (hr : rawAll [.version name version] r = some r') :
      Stored p s r'

/-- Strings that are components of keys, but not the last, have less than 65536 bytes, and prices are `Uint128`. -/
structure Short (s : State) : Prop where
  ask : ∀ id a, s.asks.get? id = some a → a.creator.length < 65536 ∧ a.collection.length < 65536 ∧
    a.details.price.denom.length < 65536 ∧ a.details.price.amount < 2^128
  bid : ∀ id b, s.bids.get? id = some b → b.creator.length < 65536 ∧ b.collection.length < 65536 ∧
    (b.collection ++ 47 :: b.tokenId).length < 65536 ∧ b.details.price.denom.length < 65536 ∧ b.details.price.amount < 2^128
  cbid : ∀ id b, s.cbids.get? id = some b → b.creator.length < 65536 ∧ b.collection.length < 65536 ∧
    b.details.price.denom.length < 65536 ∧ b.details.price.amount < 2^128

/-- The cells a state must have: keys are the name of the item; or the name of the map behind its length, then the primary key; or
the name of the index behind its length, then the index fields, each behind its length, then the primary key. -/
inductive CellOf (s : State) : Bytes → Cell → Prop where
  | config : CellOf s (str "C") (.config s.config)
  | nonce : CellOf s (str "N") (.nonce s.nonce)
  | denom (c : Addr) (d : Denom) (h : s.collectionDenoms.get? c = some d) : CellOf s (comp (str "D") ++ c) (.denom d)
  | fee (d : Denom) (n : Nat) (h : s.listingFees.get? d = some n) : CellOf s (comp (str "L") ++ d) (.amount n)
  | ask (id : Bytes) (a : Ask) (h : s.asks.get? id = some a) : CellOf s (comp (str "a") ++ id) (.ask a)
  | askPrice (id : Bytes) (a : Ask) (h : s.asks.get? id = some a) :
      CellOf s (comp (str "a_p") ++ (comp a.collection ++ (comp a.details.price.denom ++
        (comp (be 16 a.details.price.amount) ++ id)))) (.len id.length)
  | askOwn (id : Bytes) (a : Ask) (h : s.asks.get? id = some a) :
      CellOf s (comp (str "a_c") ++ (comp a.creator ++ (comp a.collection ++ id))) (.len id.length)
  | bid (id : Bytes) (b : Bid) (h : s.bids.get? id = some b) : CellOf s (comp (str "o") ++ id) (.bid b)
  | bidPrice (id : Bytes) (b : Bid) (h : s.bids.get? id = some b) :
      CellOf s (comp (str "o_p") ++ (comp (b.collection ++ 47 :: b.tokenId) ++ (comp b.details.price.denom ++
        (comp (be 16 b.details.price.amount) ++ id)))) (.len id.length)
  | bidOwn (id : Bytes) (b : Bid) (h : s.bids.get? id = some b) :
      CellOf s (comp (str "o_c") ++ (comp b.creator ++ (comp b.collection ++ id))) (.len id.length)
  | cbid (id : Bytes) (b : CBid) (h : s.cbids.get? id = some b) : CellOf s (comp (str "c") ++ id) (.cbid b)
  | cbidPrice (id : Bytes) (b : CBid) (h : s.cbids.get? id = some b) :
      CellOf s (comp (str "c_p") ++ (comp b.collection ++ (comp b.details.price.denom ++
        (comp (be 16 b.details.price.amount) ++ id)))) (.len id.length)
  | cbidOwn (id : Bytes) (b : CBid) (h : s.cbids.get? id = some b) :
      CellOf s (comp (str "c_c") ++ (comp b.creator ++ (comp b.collection ++ id))) (.len id.length)

/-- Offsets of a price query are `Uint128`. -/
def OkOpts (o : QOpts (Nat × Bytes)) : Prop := (∀ b ∈ o.min, b.key.1 < 2^128) ∧ (∀ b ∈ o.max, b.key.1 < 2^128)

end Spec
open Spec

/-! Declarations -/

theorem denomGood : denomTable.Good (fun _ => True) where
  dec _ := rfl
  unlen _ := rfl
  ne _ := by simp [denomTable]
  pkLen _ _ := rfl
  pkInj _ _ _ _ h := by simpa [denomTable] using h
  keyLen _ h := by simp [denomTable] at h
  pkNs _ h := by simp [denomTable] at h
  short := by decide +kernel
  last := by decide +kernel
  distinct := by decide +kernel

theorem feeGood : feeTable.Good (fun _ => True) where
  dec _ := rfl
  unlen _ := rfl
  ne _ := by simp [feeTable]
  pkLen _ _ := rfl
  pkInj _ _ _ _ h := by simpa [feeTable] using h
  keyLen _ h := by simp [feeTable] at h
  pkNs _ h := by simp [feeTable] at h
  short := by decide +kernel
  last := by decide +kernel
  distinct := by decide +kernel

theorem askGood : askTable.Good (fun _ => True) where
  dec _ := rfl
  unlen _ := rfl
  ne _ := by simp [askTable]
  pkLen _ _ := rfl
  pkInj _ _ _ _ h := by simpa [askTable] using h
  keyLen ix h v v' := by
    simp only [askTable, List.mem_cons, List.not_mem_nil, or_false] at h
    rcases h with rfl | rfl <;> rfl
  pkNs ix h := by
    simp only [askTable, List.mem_cons, List.not_mem_nil, or_false] at h
    rcases h with rfl | rfl <;> rfl
  short := by decide +kernel
  last := by decide +kernel
  distinct := by decide +kernel

theorem bidGood : bidTable.Good (fun _ => True) where
  dec _ := rfl
  unlen _ := rfl
  ne _ := by simp [bidTable]
  pkLen _ _ := rfl
  pkInj _ _ _ _ h := by simpa [bidTable] using h
  keyLen ix h v v' := by
    simp only [bidTable, List.mem_cons, List.not_mem_nil, or_false] at h
    rcases h with rfl | rfl <;> rfl
  pkNs ix h := by
    simp only [bidTable, List.mem_cons, List.not_mem_nil, or_false] at h
    rcases h with rfl | rfl <;> rfl
  short := by decide +kernel
  last := by decide +kernel
  distinct := by decide +kernel

theorem cbidGood : cbidTable.Good (fun _ => True) where
  dec _ := rfl
  unlen _ := rfl
  ne _ := by simp [cbidTable]
  pkLen _ _ := rfl
  pkInj _ _ _ _ h := by simpa [cbidTable] using h
  keyLen ix h v v' := by
    simp only [cbidTable, List.mem_cons, List.not_mem_nil, or_false] at h
    rcases h with rfl | rfl <;> rfl
  pkNs ix h := by
    simp only [cbidTable, List.mem_cons, List.not_mem_nil, or_false] at h
    rcases h with rfl | rfl <;> rfl
  short := by decide +kernel
  last := by decide +kernel
  distinct := by decide +kernel

/-- The store holds the state, and nothing but its records and index entries. -/
structure Holds (r : Raw) (s : State) : Prop where
  config : r.get? configKey = some (.config s.config)
  nonce : r.get? nonceKey = some (.nonce s.nonce)
  denoms : denomTable.Rep (fun _ => True) r s.collectionDenoms
  fees : feeTable.Rep (fun _ => True) r s.listingFees
  asks : askTable.Rep (fun _ => True) r s.asks
  bids : bidTable.Rep (fun _ => True) r s.bids
  cbids : cbidTable.Rep (fun _ => True) r s.cbids
  askAmt : ∀ id a, s.asks.get? id = some a → a.details.price.amount < 2^128
  bidAmt : ∀ id a, s.bids.get? id = some a → a.details.price.amount < 2^128
  cbidAmt : ∀ id a, s.cbids.get? id = some a → a.details.price.amount < 2^128
  rest : ∀ b c, r.get? b = some c → b ∈ [configKey, nonceKey, versionKey] ∨
    ∃ n ∈ denomTable.spaces ++ feeTable.spaces ++ askTable.spaces ++ bidTable.spaces ++ cbidTable.spaces, ∃ u, b = comp n ++ u

/-- namespaces of all tables -/
def allSpaces : List Bytes := denomTable.spaces ++ feeTable.spaces ++ askTable.spaces ++ bidTable.spaces ++ cbidTable.spaces

theorem short_all : ∀ n ∈ allSpaces, n.length < 256 := by decide +kernel
theorem distinct_all : allSpaces.Nodup := by decide +kernel

theorem item_config : ∀ u, configKey ≠ 0 :: u := ne_zero (by decide +kernel)
theorem item_nonce : ∀ u, nonceKey ≠ 0 :: u := ne_zero (by decide +kernel)
theorem item_version : ∀ u, versionKey ≠ 0 :: u := ne_zero (by decide +kernel)

theorem Holds.write {r r' : Raw} {s : State} (h : Holds r s) {w : Write} (ht : w.Typed) (hw : w.raw r = some r') :
    Holds r' (w.app s) := by
  have d1 : ∀ n ∈ denomTable.spaces, n.length < 65536 := denomGood.short
  have d2 : ∀ n ∈ feeTable.spaces, n.length < 65536 := feeGood.short
  have d3 : ∀ n ∈ askTable.spaces, n.length < 65536 := askGood.short
  have d4 : ∀ n ∈ bidTable.spaces, n.length < 65536 := bidGood.short
  have d5 : ∀ n ∈ cbidTable.spaces, n.length < 65536 := cbidGood.short
  have s1 : ∀ n ∈ denomTable.spaces, n.length < 256 := by decide +kernel
  have s2 : ∀ n ∈ feeTable.spaces, n.length < 256 := by decide +kernel
  have s3 : ∀ n ∈ askTable.spaces, n.length < 256 := by decide +kernel
  have s4 : ∀ n ∈ bidTable.spaces, n.length < 256 := by decide +kernel
  have s5 : ∀ n ∈ cbidTable.spaces, n.length < 256 := by decide +kernel
  -- cells of a written table
  have tab : ∀ (ns : List Bytes), (∀ n ∈ ns, n ∈ allSpaces) → (∀ b, Outside ns b → r'.get? b = r.get? b) →
      ∀ b c, r'.get? b = some c → b ∈ [configKey, nonceKey, versionKey] ∨ ∃ n ∈ allSpaces, ∃ u, b = comp n ++ u := by
    intro ns hns hf b c hb
    by_cases ho : Outside ns b
    · rw [hf b ho] at hb; exact h.rest b c hb
    · right
      unfold Outside at ho
      simp only [Classical.not_forall] at ho
      obtain ⟨n, hn, u, hu⟩ := ho
      exact ⟨n, hns n hn, u, Classical.not_not.mp hu⟩
  have item : ∀ (k : Bytes) (c : Cell), k ∈ [configKey, nonceKey, versionKey] → r' = r.insert k c →
      ∀ b c, r'.get? b = some c → b ∈ [configKey, nonceKey, versionKey] ∨ ∃ n ∈ allSpaces, ∃ u, b = comp n ++ u := by
    intro k c hk e b c' hb
    rw [e, AMap.get?_insert] at hb
    split at hb
    · rename_i e'; subst e'; exact Or.inl hk
    · exact h.rest b c' hb
  cases w with
  | config c =>
    have e : r' = r.insert configKey (.config c) := by cases hw; rfl
    have hrest := item _ _ (by simp) e
    subst e
    refine ⟨by simp [Write.app], ?_, h.denoms.item s1 item_config _, h.fees.item s2 item_config _, h.asks.item s3 item_config _,
      h.bids.item s4 item_config _, h.cbids.item s5 item_config _, h.askAmt, h.bidAmt, h.cbidAmt, hrest⟩
    rw [AMap.get?_insert, if_neg (by decide +kernel)]; exact h.nonce
  | nonce n =>
    have e : r' = r.insert nonceKey (.nonce n) := by cases hw; rfl
    have hrest := item _ _ (by simp) e
    subst e
    refine ⟨?_, by simp [Write.app], h.denoms.item s1 item_nonce _, h.fees.item s2 item_nonce _, h.asks.item s3 item_nonce _,
      h.bids.item s4 item_nonce _, h.cbids.item s5 item_nonce _, h.askAmt, h.bidAmt, h.cbidAmt, hrest⟩
    rw [AMap.get?_insert, if_neg (by decide +kernel)]; exact h.config
  | version n v =>
    have e : r' = r.insert versionKey (.version n v) := by cases hw; rfl
    have hrest := item _ _ (by simp) e
    subst e
    refine ⟨?_, ?_, h.denoms.item s1 item_version _, h.fees.item s2 item_version _, h.asks.item s3 item_version _,
      h.bids.item s4 item_version _, h.cbids.item s5 item_version _, h.askAmt, h.bidAmt, h.cbidAmt, hrest⟩
    · rw [AMap.get?_insert, if_neg (by decide +kernel)]; exact h.config
    · rw [AMap.get?_insert, if_neg (by decide +kernel)]; exact h.nonce
  | denom coll d =>
    have hf := fun b => save_frame denomGood hw (b := b)
    exact ⟨by rw [hf _ (outside_item s1 item_config)]; exact h.config, by rw [hf _ (outside_item s1 item_nonce)]; exact h.nonce,
      h.denoms.save denomGood trivial hw, h.fees.other feeGood d1 (by decide +kernel) hf, h.asks.other askGood d1 (by decide +kernel) hf,
      h.bids.other bidGood d1 (by decide +kernel) hf, h.cbids.other cbidGood d1 (by decide +kernel) hf, h.askAmt, h.bidAmt, h.cbidAmt,
      tab _ (by decide +kernel) hf⟩
  | fee d n =>
    have hf := fun b => save_frame feeGood hw (b := b)
    exact ⟨by rw [hf _ (outside_item s2 item_config)]; exact h.config, by rw [hf _ (outside_item s2 item_nonce)]; exact h.nonce,
      h.denoms.other denomGood d2 (by decide +kernel) hf, h.fees.save feeGood trivial hw, h.asks.other askGood d2 (by decide +kernel) hf,
      h.bids.other bidGood d2 (by decide +kernel) hf, h.cbids.other cbidGood d2 (by decide +kernel) hf, h.askAmt, h.bidAmt, h.cbidAmt,
      tab _ (by decide +kernel) hf⟩
  | rmFee d =>
    have hf := fun b => remove_frame feeGood hw (b := b)
    exact ⟨by rw [hf _ (outside_item s2 item_config)]; exact h.config, by rw [hf _ (outside_item s2 item_nonce)]; exact h.nonce,
      h.denoms.other denomGood d2 (by decide +kernel) hf, h.fees.remove feeGood trivial hw, h.asks.other askGood d2 (by decide +kernel) hf,
      h.bids.other bidGood d2 (by decide +kernel) hf, h.cbids.other cbidGood d2 (by decide +kernel) hf, h.askAmt, h.bidAmt, h.cbidAmt,
      tab _ (by decide +kernel) hf⟩
  | ask a =>
    have hf := fun b => save_frame askGood hw (b := b)
    exact ⟨by rw [hf _ (outside_item s3 item_config)]; exact h.config, by rw [hf _ (outside_item s3 item_nonce)]; exact h.nonce,
      h.denoms.other denomGood d3 (by decide +kernel) hf, h.fees.other feeGood d3 (by decide +kernel) hf, h.asks.save askGood trivial hw,
      h.bids.other bidGood d3 (by decide +kernel) hf, h.cbids.other cbidGood d3 (by decide +kernel) hf, insert_mem (P := fun _ (a : Ask) => a.details.price.amount < 2^128) h.askAmt ht,
      h.bidAmt, h.cbidAmt, tab _ (by decide +kernel) hf⟩
  | rmAsk id =>
    have hf := fun b => remove_frame askGood hw (b := b)
    exact ⟨by rw [hf _ (outside_item s3 item_config)]; exact h.config, by rw [hf _ (outside_item s3 item_nonce)]; exact h.nonce,
      h.denoms.other denomGood d3 (by decide +kernel) hf, h.fees.other feeGood d3 (by decide +kernel) hf, h.asks.remove askGood trivial hw,
      h.bids.other bidGood d3 (by decide +kernel) hf, h.cbids.other cbidGood d3 (by decide +kernel) hf, erase_mem (P := fun _ (a : Ask) => a.details.price.amount < 2^128) h.askAmt,
      h.bidAmt, h.cbidAmt, tab _ (by decide +kernel) hf⟩
  | bid a =>
    have hf := fun b => save_frame bidGood hw (b := b)
    exact ⟨by rw [hf _ (outside_item s4 item_config)]; exact h.config, by rw [hf _ (outside_item s4 item_nonce)]; exact h.nonce,
      h.denoms.other denomGood d4 (by decide +kernel) hf, h.fees.other feeGood d4 (by decide +kernel) hf,
      h.asks.other askGood d4 (by decide +kernel) hf, h.bids.save bidGood trivial hw, h.cbids.other cbidGood d4 (by decide +kernel) hf,
      h.askAmt, insert_mem (P := fun _ (a : Bid) => a.details.price.amount < 2^128) h.bidAmt ht, h.cbidAmt, tab _ (by decide +kernel) hf⟩
  | rmBid id =>
    have hf := fun b => remove_frame bidGood hw (b := b)
    exact ⟨by rw [hf _ (outside_item s4 item_config)]; exact h.config, by rw [hf _ (outside_item s4 item_nonce)]; exact h.nonce,
      h.denoms.other denomGood d4 (by decide +kernel) hf, h.fees.other feeGood d4 (by decide +kernel) hf,
      h.asks.other askGood d4 (by decide +kernel) hf, h.bids.remove bidGood trivial hw, h.cbids.other cbidGood d4 (by decide +kernel) hf,
      h.askAmt, erase_mem (P := fun _ (a : Bid) => a.details.price.amount < 2^128) h.bidAmt, h.cbidAmt, tab _ (by decide +kernel) hf⟩
  | cbid a =>
    have hf := fun b => save_frame cbidGood hw (b := b)
    exact ⟨by rw [hf _ (outside_item s5 item_config)]; exact h.config, by rw [hf _ (outside_item s5 item_nonce)]; exact h.nonce,
      h.denoms.other denomGood d5 (by decide +kernel) hf, h.fees.other feeGood d5 (by decide +kernel) hf,
      h.asks.other askGood d5 (by decide +kernel) hf, h.bids.other bidGood d5 (by decide +kernel) hf, h.cbids.save cbidGood trivial hw,
      h.askAmt, h.bidAmt, insert_mem (P := fun _ (a : CBid) => a.details.price.amount < 2^128) h.cbidAmt ht, tab _ (by decide +kernel) hf⟩
  | rmCBid id =>
    have hf := fun b => remove_frame cbidGood hw (b := b)
    exact ⟨by rw [hf _ (outside_item s5 item_config)]; exact h.config, by rw [hf _ (outside_item s5 item_nonce)]; exact h.nonce,
      h.denoms.other denomGood d5 (by decide +kernel) hf, h.fees.other feeGood d5 (by decide +kernel) hf,
      h.asks.other askGood d5 (by decide +kernel) hf, h.bids.other bidGood d5 (by decide +kernel) hf, h.cbids.remove cbidGood trivial hw,
      h.askAmt, h.bidAmt, erase_mem (P := fun _ (a : CBid) => a.details.price.amount < 2^128) h.cbidAmt, tab _ (by decide +kernel) hf⟩

theorem Holds.writes {ws : List Write} : ∀ {r r' : Raw} {s : State}, Holds r s → (∀ w ∈ ws, w.Typed) → rawAll ws r = some r' →
    Holds r' (ws.foldl Write.app s) := by
  induction ws with
  | nil => intro r r' s h _ hr; cases hr; exact h
  | cons w ws ih =>
    intro r r' s h ht hr
    unfold rawAll at hr
    cases hw : w.raw r with
    | none => rw [hw] at hr; cases hr
    | some r1 =>
      rw [hw, Option.bind_some] at hr
      exact ih (h.write (ht w (by simp)) hw) (fun x hx => ht x (by simp [hx])) hr

theorem Holds.init {p : Params} {c : Config} {s : State} {r : Raw} {name version : Bytes} (h : instantiate p c = .ok s)
    (hr : rawInit name version s.config = some r) : Holds r s := by
  unfold instantiate at h
  simp only [bind_ok] at h
  obtain ⟨c', _, _, _, h⟩ := h
  cases h
  have e : r = ((AMap.empty.insert versionKey (Cell.version name version)).insert configKey (.config c')).insert nonceKey (.nonce 0) := by
    cases hr; rfl
  have rep : ∀ {K V : Type} [DecidableEq K] {t : Table K V Cell}, (∀ n ∈ t.spaces, n.length < 256) →
      t.Rep (fun _ => True) r (AMap.empty : AMap K V) := by
    intro K V _ t hs
    rw [e]
    exact ((Table.Rep.empty.item hs item_version _).item hs item_config _).item hs item_nonce _
  refine ⟨?_, ?_, rep (by decide +kernel), rep (by decide +kernel), rep (by decide +kernel), rep (by decide +kernel),
    rep (by decide +kernel), ?_, ?_, ?_, ?_⟩
  · rw [e, AMap.get?_insert, if_neg (by decide +kernel)]; simp
  · rw [e]; simp
  · intro id a h; simp at h
  · intro id a h; simp at h
  · intro id a h; simp at h
  · intro b c hb
    left
    rw [e] at hb
    simp only [AMap.get?_insert] at hb
    split at hb
    · simp_all
    · split at hb
      · simp_all
      · split at hb
        · simp_all
        · simp at hb

theorem Spec.Stored.holds {p : Params} {s : State} {r : Raw} (h : Stored p s r) : Holds r s := by
  induction h with
  | init h hr => exact Holds.init h hr
  | call hs h ht hw hr ih => rw [hw]; exact ih.writes ht hr
  | migrate hs hr ih => exact ih.writes (ws := [.version _ _]) (by intro w hw; simp at hw; subst hw; trivial) hr

/-- The store has exactly the cells of the state (besides the contract version). -/
theorem C104_cells {p : Params} {s : State} {r : Raw} (h : Stored p s r) {b : Bytes} {c : Cell} (hb : b ≠ str "contract_info") :
    r.get? b = some c ↔ CellOf s b c := by
  have H := h.holds
  have pk1 : ∀ (k : Bytes), join [k] = k := fun _ => rfl
  constructor
  · intro hc
    rcases H.rest b c hc with h1 | ⟨n, hn, u, rfl⟩
    · simp only [List.mem_cons, List.not_mem_nil, or_false] at h1
      rcases h1 with rfl | rfl | rfl
      · rw [H.config] at hc; cases hc; exact .config
      · rw [H.nonce] at hc; cases hc; exact .nonce
      · exact absurd rfl hb
    · simp only [List.mem_append] at hn
      rcases hn with (((hn | hn) | hn) | hn) | hn
      · simp only [Table.spaces, denomTable, List.map_nil, List.mem_cons, List.not_mem_nil, or_false] at hn
        subst hn
        obtain ⟨k, v, h1, rfl, rfl⟩ := (H.denoms.prim u c).mp hc
        exact .denom _ v h1
      · simp only [Table.spaces, feeTable, List.map_nil, List.mem_cons, List.not_mem_nil, or_false] at hn
        subst hn
        obtain ⟨k, v, h1, rfl, rfl⟩ := (H.fees.prim u c).mp hc
        exact .fee _ v h1
      · simp only [Table.spaces, askTable, List.map_cons, List.map_nil, List.mem_cons, List.not_mem_nil, or_false] at hn
        rcases hn with rfl | rfl | rfl
        · obtain ⟨k, v, h1, rfl, rfl⟩ := (H.asks.prim u c).mp hc
          exact .ask _ v h1
        · obtain ⟨k, v, h1, rfl, rfl⟩ := (H.asks.idx askPriceIx (by simp [askTable]) u c).mp hc
          exact .askPrice k v h1
        · obtain ⟨k, v, h1, rfl, rfl⟩ := (H.asks.idx askOwnIx (by simp [askTable]) u c).mp hc
          exact .askOwn k v h1
      · simp only [Table.spaces, bidTable, List.map_cons, List.map_nil, List.mem_cons, List.not_mem_nil, or_false] at hn
        rcases hn with rfl | rfl | rfl
        · obtain ⟨k, v, h1, rfl, rfl⟩ := (H.bids.prim u c).mp hc
          exact .bid _ v h1
        · obtain ⟨k, v, h1, rfl, rfl⟩ := (H.bids.idx bidPriceIx (by simp [bidTable]) u c).mp hc
          exact .bidPrice k v h1
        · obtain ⟨k, v, h1, rfl, rfl⟩ := (H.bids.idx bidOwnIx (by simp [bidTable]) u c).mp hc
          exact .bidOwn k v h1
      · simp only [Table.spaces, cbidTable, List.map_cons, List.map_nil, List.mem_cons, List.not_mem_nil, or_false] at hn
        rcases hn with rfl | rfl | rfl
        · obtain ⟨k, v, h1, rfl, rfl⟩ := (H.cbids.prim u c).mp hc
          exact .cbid _ v h1
        · obtain ⟨k, v, h1, rfl, rfl⟩ := (H.cbids.idx cbidPriceIx (by simp [cbidTable]) u c).mp hc
          exact .cbidPrice k v h1
        · obtain ⟨k, v, h1, rfl, rfl⟩ := (H.cbids.idx cbidOwnIx (by simp [cbidTable]) u c).mp hc
          exact .cbidOwn k v h1
  · intro hc
    cases hc with
    | config => exact H.config
    | nonce => exact H.nonce
    | denom k d h1 => exact (H.denoms.prim _ _).mpr ⟨k, d, h1, rfl, rfl⟩
    | fee k d h1 => exact (H.fees.prim _ _).mpr ⟨k, d, h1, rfl, rfl⟩
    | ask k v h1 => exact (H.asks.prim _ _).mpr ⟨k, v, h1, rfl, rfl⟩
    | askPrice k v h1 => exact (H.asks.idx askPriceIx (by simp [askTable]) _ _).mpr ⟨k, v, h1, rfl, rfl⟩
    | askOwn k v h1 => exact (H.asks.idx askOwnIx (by simp [askTable]) _ _).mpr ⟨k, v, h1, rfl, rfl⟩
    | bid k v h1 => exact (H.bids.prim _ _).mpr ⟨k, v, h1, rfl, rfl⟩
    | bidPrice k v h1 => exact (H.bids.idx bidPriceIx (by simp [bidTable]) _ _).mpr ⟨k, v, h1, rfl, rfl⟩
    | bidOwn k v h1 => exact (H.bids.idx bidOwnIx (by simp [bidTable]) _ _).mpr ⟨k, v, h1, rfl, rfl⟩
    | cbid k v h1 => exact (H.cbids.prim _ _).mpr ⟨k, v, h1, rfl, rfl⟩
    | cbidPrice k v h1 => exact (H.cbids.idx cbidPriceIx (by simp [cbidTable]) _ _).mpr ⟨k, v, h1, rfl, rfl⟩
    | cbidOwn k v h1 => exact (H.cbids.idx cbidOwnIx (by simp [cbidTable]) _ _).mpr ⟨k, v, h1, rfl, rfl⟩

/-- Records are read back from the store. -/
theorem C104_reads {p : Params} {s : State} {r : Raw} (h : Stored p s r) :
    rawConfig r = some s.config ∧ rawNonce r = some s.nonce ∧
    (∀ c, denomTable.load r c = s.collectionDenoms.get? c) ∧ (∀ d, feeTable.load r d = s.listingFees.get? d) ∧
    (∀ id, askTable.load r id = s.asks.get? id) ∧ (∀ id, bidTable.load r id = s.bids.get? id) ∧
    (∀ id, cbidTable.load r id = s.cbids.get? id) := by
  have H := h.holds
  refine ⟨by unfold rawConfig; rw [H.config], by unfold rawNonce; rw [H.nonce], fun k => H.denoms.load denomGood trivial ?_,
    fun k => H.fees.load feeGood trivial ?_, fun k => H.asks.load askGood trivial ?_, fun k => H.bids.load bidGood trivial ?_,
    fun k => H.cbids.load cbidGood trivial ?_⟩ <;>
  · exact (fits_cons (by simp [denomTable, feeTable, askTable, bidTable, cbidTable])).mpr ⟨by decide +kernel, rfl⟩

theorem priceKey_ord (j j' : Nat × Bytes) (h : j.1 < 2^128) (h' : j'.1 < 2^128) : bLe (priceKey j) (priceKey j') = pkLe j j' := by
  rw [pkLe_lex]
  exact bLe_compBe j.2 j'.2 (by simpa using h) (by simpa using h')

theorem own_index {V : Type} (m : AMap Bytes V) (sel : V → Bool) : index m sel (fun k _ => k) = m.l.filter (fun e => sel e.2) := by
  unfold index
  exact List.map_id' _

/-- Listing an index of the store gives the answer of the typed query. -/
theorem C104_listings {p : Params} {s : State} {r : Raw} (h : Stored p s r) :
    (∀ coll den o, coll.length < 65535 → den.length < 65535 → OkOpts o →
      rawAsksByCollectionDenom p r coll den o = some (queryAsksByCollectionDenom p s coll den o) ∧
      rawCollectionBidsByPrice p r coll den o = some (queryCollectionBidsByPrice p s coll den o)) ∧
    (∀ coll tok den o, (coll ++ 47 :: tok).length < 65535 → den.length < 65535 → OkOpts o →
      rawBidsByTokenPrice p r coll tok den o = some (queryBidsByTokenPrice p s coll tok den o)) ∧
    (∀ creator coll o, creator.length < 65535 → coll.length < 65535 →
      rawAsksByCreatorCollection p r creator coll o = some (queryAsksByCreatorCollection p s creator coll o) ∧
      rawBidsByCreatorCollection p r creator coll o = some (queryBidsByCreatorCollection p s creator coll o) ∧
      rawCollectionBidsByCreatorCollection p r creator coll o = some (queryCollectionBidsByCreatorCollection p s creator coll o)) := by
  have H := h.holds
  refine ⟨fun coll den o h1 h2 ho => ⟨?_, ?_⟩, fun coll tok den o h1 h2 ho => ?_, fun creator coll o h1 h2 => ⟨?_, ?_, ?_⟩⟩
  · refine list_eq askGood H.asks pkLin (D := fun j : Nat × Bytes => j.1 < 2^128)
      (sel := fun a => decide (a.collection = coll ∧ a.details.price.denom = den)) (key := fun k a => (a.details.price.amount, k))
      ⟨by simp [askTable], by simp; omega, by simp; omega, fun k v hv => ?_, fun k v hv _ => ⟨H.askAmt k v hv, rfl⟩, priceKey_ord⟩ ho.1 ho.2 _
    simp [askPriceIx]
  · refine list_eq cbidGood H.cbids pkLin (D := fun j : Nat × Bytes => j.1 < 2^128)
      (sel := fun a => decide (a.collection = coll ∧ a.details.price.denom = den)) (key := fun k a => (a.details.price.amount, k))
      ⟨by simp [cbidTable], by simp; omega, by simp; omega, fun k v hv => ?_, fun k v hv _ => ⟨H.cbidAmt k v hv, rfl⟩, priceKey_ord⟩ ho.1 ho.2 _
    simp [cbidPriceIx]
  · refine list_eq bidGood H.bids pkLin (D := fun j : Nat × Bytes => j.1 < 2^128)
      (sel := fun b => decide (indexStr b.collection b.tokenId = indexStr coll tok ∧ b.details.price.denom = den))
      (key := fun k a => (a.details.price.amount, k))
      ⟨by simp [bidTable], ?_, by simpa using h2, fun k v hv => ?_, fun k v hv _ => ⟨H.bidAmt k v hv, rfl⟩, priceKey_ord⟩ ho.1 ho.2 _
    · intro a ha
      simp only [List.mem_cons, List.not_mem_nil, or_false] at ha
      rcases ha with rfl | rfl
      · have h1' : (indexStr coll tok).length < 65535 := h1
        omega
      · omega
    · simp [bidPriceIx]
  · have := list_eq (desc := o.descending.getD false) (mn := o.min) (mx := o.max) askGood H.asks bytesLin (ix := askOwnIx)
      (pre := [creator, coll]) (D := fun _ => True) (enc := fun k => k)
      (sel := fun a => decide (a.creator = creator ∧ a.collection = coll)) (key := fun k _ => k)
      ⟨by simp [askTable], by simp; omega, by simp; omega, fun k v hv => by simp [askOwnIx], fun k v hv _ => ⟨trivial, rfl⟩, fun _ _ _ _ => rfl⟩
      (fun _ _ => trivial) (fun _ _ => trivial) (Nat.min (o.limit.getD p.defLimit) p.maxLimit)
    rw [QBound_map_id, QBound_map_id, own_index] at this
    exact this
  · have := list_eq (desc := o.descending.getD false) (mn := o.min) (mx := o.max) bidGood H.bids bytesLin (ix := bidOwnIx)
      (pre := [creator, coll]) (D := fun _ => True) (enc := fun k => k)
      (sel := fun a => decide (a.creator = creator ∧ a.collection = coll)) (key := fun k _ => k)
      ⟨by simp [bidTable], by simp; omega, by simp; omega, fun k v hv => by simp [bidOwnIx], fun k v hv _ => ⟨trivial, rfl⟩, fun _ _ _ _ => rfl⟩
      (fun _ _ => trivial) (fun _ _ => trivial) (Nat.min (o.limit.getD p.defLimit) p.maxLimit)
    rw [QBound_map_id, QBound_map_id, own_index] at this
    exact this
  · have := list_eq (desc := o.descending.getD false) (mn := o.min) (mx := o.max) cbidGood H.cbids bytesLin (ix := cbidOwnIx)
      (pre := [creator, coll]) (D := fun _ => True) (enc := fun k => k)
      (sel := fun a => decide (a.creator = creator ∧ a.collection = coll)) (key := fun k _ => k)
      ⟨by simp [cbidTable], by simp; omega, by simp; omega, fun k v hv => by simp [cbidOwnIx], fun k v hv _ => ⟨trivial, rfl⟩, fun _ _ _ _ => rfl⟩
      (fun _ _ => trivial) (fun _ _ => trivial) (Nat.min (o.limit.getD p.defLimit) p.maxLimit)
    rw [QBound_map_id, QBound_map_id, own_index] at this
    exact this

/-! Every call consists of such writes. -/

/-- The orders written are orders of the state. -/
def Write.From (s : State) : Write → Prop
  | .ask a => s.asks.get? a.id = some a
  | .bid b => s.bids.get? b.id = some b
  | .cbid b => s.cbids.get? b.id = some b
  | _ => True

theorem execute_writes {p : Params} {ctx : Ctx} {sender : Addr} {funds : List Coin} {m : Exec} {s s' : State} {msgs : List Msg}
    (h : execute p ctx sender funds m s = .ok (s', msgs)) :
    ∃ ws : List Write, s' = ws.foldl Write.app s ∧ ∀ w ∈ ws, w.From s' := by
  have sale : ∀ (s : State) (a : Ask) (mb : MatchingBid),
      ∃ ws : List Write, afterSale s a mb = ws.foldl Write.app s ∧ ∀ s', ∀ w ∈ ws, w.From s' := by
    intro s a mb
    cases mb with
    | bid b => exact ⟨[.rmAsk a.id, .rmBid b.id], rfl, by intro s' w hw; simp at hw; rcases hw with rfl | rfl <;> trivial⟩
    | cbid b => exact ⟨[.rmAsk a.id, .rmCBid b.id], rfl, by intro s' w hw; simp at hw; rcases hw with rfl | rfl <;> trivial⟩
  have sale' : ∀ (a : Ask) (mb : MatchingBid),
      ∃ ws : List Write, afterSale (bump s) a mb = ws.foldl Write.app s ∧ ∀ s', ∀ w ∈ ws, w.From s' := by
    intro a mb
    obtain ⟨ws, h1, h2⟩ := sale (bump s) a mb
    refine ⟨.nonce (nextNonce s) :: ws, h1, fun s' w hw => ?_⟩
    rcases List.mem_cons.mp hw with rfl | hw
    · trivial
    · exact h2 s' w hw
  have one : ∀ (w : Write) (s' : State), w.From s' → ∀ x ∈ [w], x.From s' := by
    intro w s' hw x hx; simp at hx; subst hx; exact hw
  cases execute_eff h with
  | config c => exact ⟨[.config c], rfl, one _ _ trivial⟩
  | denom coll den => exact ⟨[.denom coll den], rfl, one _ _ trivial⟩
  | setFee fee => exact ⟨[.fee fee.denom fee.amount], rfl, one _ _ trivial⟩
  | rmFee den => exact ⟨[.rmFee den], rfl, one _ _ trivial⟩
  | restAsk coll tok d pay => exact ⟨[.ask (Ask.new p sender coll tok d)], rfl, one _ _ (by simp [Write.From, Ask.new])⟩
  | sellAsk => obtain ⟨ws, h1, h2⟩ := sale s _ _; exact ⟨ws, h1, h2 _⟩
  | updAsk id d a => exact ⟨[.ask { a with details := d }], rfl, one _ _ (by simp [Write.From])⟩
  | updSell => obtain ⟨ws, h1, h2⟩ := sale s _ _; exact ⟨ws, h1, h2 _⟩
  | rmAsk id a => exact ⟨[.rmAsk a.id], rfl, one _ _ trivial⟩
  | accAsk => obtain ⟨ws, h1, h2⟩ := sale' _ _; exact ⟨ws, h1, h2 _⟩
  | restBid coll tok d =>
    refine ⟨[.nonce (nextNonce s), .bid (Bid.new p sender coll tok d ctx.height (nextNonce s))], rfl, fun w hw => ?_⟩
    simp only [List.mem_cons, List.not_mem_nil, or_false] at hw
    rcases hw with rfl | rfl
    · trivial
    · simp [Write.From]
  | buyBid => obtain ⟨ws, h1, h2⟩ := sale' _ _; exact ⟨ws, h1, h2 _⟩
  | updBid id d b => exact ⟨[.bid { b with details := d }], rfl, one _ _ (by simp [Write.From])⟩
  | updBuy => obtain ⟨ws, h1, h2⟩ := sale s _ _; exact ⟨ws, h1, h2 _⟩
  | rmBid id b => exact ⟨[.rmBid b.id], rfl, one _ _ trivial⟩
  | accBid => obtain ⟨ws, h1, h2⟩ := sale s _ _; exact ⟨ws, h1, h2 _⟩
  | restCBid coll d =>
    refine ⟨[.nonce (nextNonce s), .cbid (CBid.new p sender coll d ctx.height (nextNonce s))], rfl, fun w hw => ?_⟩
    simp only [List.mem_cons, List.not_mem_nil, or_false] at hw
    rcases hw with rfl | rfl
    · trivial
    · simp [Write.From]
  | buyCBid => obtain ⟨ws, h1, h2⟩ := sale' _ _; exact ⟨ws, h1, h2 _⟩
  | updCBid id d b => exact ⟨[.cbid { b with details := d }], rfl, one _ _ (by simp [Write.From])⟩
  | updCBuy => obtain ⟨ws, h1, h2⟩ := sale s _ _; exact ⟨ws, h1, h2 _⟩
  | rmCBid id b => exact ⟨[.rmCBid b.id], rfl, one _ _ trivial⟩
  | accCBid => obtain ⟨ws, h1, h2⟩ := sale s _ _; exact ⟨ws, h1, h2 _⟩

theorem raw_some {s : State} (hs : Short s) {w : Write} (hw : w.From s) (r : Raw) : w.Typed ∧ ∃ r', w.raw r = some r' := by
  have e16 : ∀ n, (be 16 n).length = 16 := be_length 16
  cases w with
  | config c => exact ⟨trivial, _, rfl⟩
  | nonce n => exact ⟨trivial, _, rfl⟩
  | version n v => exact ⟨trivial, _, rfl⟩
  | denom coll d => exact ⟨trivial, save_some rfl⟩
  | fee d n => exact ⟨trivial, save_some rfl⟩
  | rmFee d => exact ⟨trivial, remove_some rfl⟩
  | rmAsk id => exact ⟨trivial, remove_some rfl⟩
  | rmBid id => exact ⟨trivial, remove_some rfl⟩
  | rmCBid id => exact ⟨trivial, remove_some rfl⟩
  | ask a =>
    obtain ⟨h1, h2, h3, h4⟩ := hs.ask _ _ hw
    exact ⟨h4, save_some (by simp [Table.okay, askTable, askPriceIx, askOwnIx, fits, h1, h2, h3, e16]; decide +kernel)⟩
  | bid b =>
    obtain ⟨h1, h2, h3, h4, h5⟩ := hs.bid _ _ hw
    have h3' : (indexStr b.collection b.tokenId).length < 65536 := h3
    exact ⟨h5, save_some (by simp [Table.okay, bidTable, bidPriceIx, bidOwnIx, fits, h1, h2, h3', h4, e16]; decide +kernel)⟩
  | cbid b =>
    obtain ⟨h1, h2, h3, h4⟩ := hs.cbid _ _ hw
    exact ⟨h4, save_some (by simp [Table.okay, cbidTable, cbidPriceIx, cbidOwnIx, fits, h1, h2, h3, e16]; decide +kernel)⟩

theorem rawAll_some {s : State} (hs : Short s) {ws : List Write} (hw : ∀ w ∈ ws, w.From s) : ∀ r : Raw, ∃ r', rawAll ws r = some r' := by
  induction ws with
  | nil => intro r; exact ⟨r, rfl⟩
  | cons w ws ih =>
    intro r
    obtain ⟨_, r1, h1⟩ := raw_some hs (hw w (by simp)) r
    obtain ⟨r2, h2⟩ := ih (fun x hx => hw x (by simp [hx])) r1
    exact ⟨r2, by unfold rawAll; rw [h1]; exact h2⟩

/-- Every successful call can be carried out on the store, unless it would write a key with a component of 65536 bytes. -/
theorem C104_calls {p : Params} {s s' : State} {r : Raw} {ctx : Ctx} {sender : Addr} {funds : List Coin} {m : Exec} {msgs : List Msg}
    (h : Stored p s r) (hx : execute p ctx sender funds m s = .ok (s', msgs)) (hs : Short s') : ∃ r', Stored p s' r' := by
  obtain ⟨ws, h1, h2⟩ := execute_writes hx
  obtain ⟨r', hr⟩ := rawAll_some hs h2 r
  exact ⟨r', .call h hx (fun w hw => (raw_some hs (h2 w hw) r).1) h1 hr⟩

/-- Namespaces of the contract are distinct. -/
theorem C104_namespaces : ([str "C", str "N", str "contract_info"] ++
    [str "D", str "L", str "a", str "a_p", str "a_c", str "o", str "o_p", str "o_c", str "c", str "c_p", str "c_c"]).Nodup := by
  decide +kernel

namespace Sample

def writes1 : List Write := [.fee ust 5]
def writes2 : List Write := [.ask (Ask.new P alice coll tok (det 100))]
def writes3 : List Write := [.nonce 1, .bid (Bid.new P bob coll tok (det' 80 carol) 7 1)]
def writes4 : List Write := [.nonce 2, .cbid (CBid.new P carol coll (det 90) 7 2)]
def raw0 : Raw := (rawInit [109] [49] cfg).getD .empty
def raw1 : Raw := (rawAll writes1 raw0).getD .empty
def raw2 : Raw := (rawAll writes2 raw1).getD .empty
def raw3 : Raw := (rawAll writes3 raw2).getD .empty
def raw4 : Raw := (rawAll writes4 raw3).getD .empty

instance : DecidablePred Write.Typed := fun w => by cases w <;> unfold Write.Typed <;> infer_instance

theorem stored {s s' : State} {r r' : Raw} {c : Ctx} {sender : Addr} {funds : List Coin} {m : Exec} {ws : List Write}
    (hs : Stored P s r) (h : ok c sender funds m s = true) (ht : ∀ w ∈ ws, w.Typed) (e : s' = (run c sender funds m s).1)
    (hw : (run c sender funds m s).1 = ws.foldl Write.app s) (hr : rawAll ws r = some r') : Stored P s' r' :=
  .call hs (msgs := (run c sender funds m s).2) (by rw [e]; exact run_eq h) ht (e.trans hw) hr

theorem stored4 : Stored P s4 raw4 := by
  have h0 : Stored P s0 raw0 := .init init0 (name := [109]) (version := [49]) rfl
  have h1 : Stored P s1 raw1 := stored h0 (by decide +kernel) (ws := writes1) (by decide +kernel) rfl rfl rfl
  have h2 : Stored P s2 raw2 := stored h1 (by decide +kernel) (ws := writes2) (by decide +kernel) rfl rfl rfl
  have h3 : Stored P s3 raw3 := stored h2 (by decide +kernel) (ws := writes3) (by decide +kernel) rfl rfl rfl
  exact stored h3 (by decide +kernel) (ws := writes4) (by decide +kernel) rfl rfl rfl

end Sample

/-- The store of the sample: 3 items, a fee, and three orders with two index entries each; alice's listing is found below
`a_p`, collection, denom; after repricing the old index entry is gone; after cancelling nothing of the listing is left. -/
example : Sample.raw4.l.length = 13 ∧
    rawAsksByCollectionDenom Sample.P Sample.raw4 Sample.coll Sample.ust {} =
      some [Ask.new Sample.P Sample.alice Sample.coll Sample.tok (Sample.det 100)] ∧
    ((rawAll [.ask (Ask.new Sample.P Sample.alice Sample.coll Sample.tok (Sample.det 95))] Sample.raw4).map
      (fun r => (r.l.length, rawAsksByCollectionDenom Sample.P r Sample.coll Sample.ust {}))) =
      some (13, some [Ask.new Sample.P Sample.alice Sample.coll Sample.tok (Sample.det 95)]) ∧
    ((rawAll [.rmAsk Sample.aid] Sample.raw4).map
      (fun r => (r.l.length, rawAsksByCollectionDenom Sample.P r Sample.coll Sample.ust {}))) = some (10, some []) := by
  decide +kernel

end Verif.V2

/-
Reserve auction: the key-value store (C105).
-/
import Verif.Auction.Store
import Verif.Auction.PropsQuery
import Verif.Auction.Sample
import Verif.Base.KvList

namespace Verif.Auction
open Verif Kv

/-! ### C105: records, indexes and namespaces -/

namespace Spec

/-- Times are `u64`. -/
def _root_.Verif.Auction.Write.Typed : Write → Prop
  | .auction a => ∀ e, a.endTime = some e → e < 2^64
  | _ => True

/-- The contract together with its key-value store: each call makes some of the writes of its handlers, on both. -/
inductive OnStore (p : Params) : State → Raw → Prop where
  | init {c : Config} {mins : List Coin} {s : State} {r : Raw} {name version : Bytes} (h : instantiate p c mins = .ok s)
      (hr : rawInit name version s.config mins = some r) : OnStore p s r
  | call {s s' : State} {r r' : Raw} {ctx : Ctx} {sender : Addr} {funds : List Coin} {m : Exec} {msgs : List Msg} {ws : List Write}
      (hs : OnStore p s r) (h : execute p ctx sender funds m s = .ok (s', msgs)) (ht : ∀ w ∈ ws, w.Typed)
      (hw : s' = ws.foldl Write.app s) (hr : rawAll ws r = some r') : OnStore p s' r'
  | sudo {s s' : State} {r r' : Raw} {ctx : Ctx} {m : Sudo} {msgs : List Msg} {ws : List Write}
      (hs : OnStore p s r) (h : sudo p ctx m s = .ok (s', msgs)) (ht : ∀ w ∈ ws, w.Typed)
      (hw : s' = ws.foldl Write.app s) (hr : rawAll ws r = some r') : OnStore p s' r'
  | migrate {s : State} {r r' : Raw} {name version : Bytes} (hs : OnStore p s r) (hr : rawAll [.version name version] r = some r') :
      OnStore p s r'

/-- Seconds of the end, `u64::MAX` before the first bid. -/
def endOf (a : Auction) : Nat :=
  match a.endTime with
  | none => 2^64 - 1
  | some e => e / 10^9

/-- The cells a state must have. -/
inductive CellOf (s : State) : Bytes → Cell → Prop where
  | config : CellOf s (str "cfg") (.config s.config)
  | halt : CellOf s (str "hm") (.halt s.prevBlock s.windows)
  | min (d : Denom) (n : Nat) (h : s.minReserve.get? d = some n) : CellOf s (comp (str "mrp") ++ d) (.amount n)
  | auction (coll tok : Bytes) (a : Auction) (h : s.auctions.get? (coll, tok) = some a) :
      CellOf s (comp (str "a") ++ (comp coll ++ tok)) (.auction a)
  | seller (coll tok : Bytes) (a : Auction) (h : s.auctions.get? (coll, tok) = some a) :
      CellOf s (comp (str "a__s") ++ (comp a.seller ++ (comp coll ++ tok))) (.len (comp coll ++ tok).length)
  | ends (coll tok : Bytes) (a : Auction) (h : s.auctions.get? (coll, tok) = some a) :
      CellOf s (comp (str "a__et") ++ (comp (be 8 (endOf a)) ++ (comp coll ++ tok))) (.len (comp coll ++ tok).length)

end Spec
open Spec

/-! Declarations -/

theorem minGood : minTable.Good (fun _ => True) where
  dec _ := rfl
  unlen _ := rfl
  ne _ := by simp [minTable]
  pkLen _ _ := rfl
  pkInj _ _ _ _ h := by simpa [minTable] using h
  keyLen _ h := by simp [minTable] at h
  pkNs _ h := by simp [minTable] at h
  short := by decide +kernel
  last := by decide +kernel
  distinct := by decide +kernel

theorem auctionGood : auctionTable.Good (fun _ => True) where
  dec _ := rfl
  unlen _ := rfl
  ne _ := by simp [auctionTable]
  pkLen _ _ := rfl
  pkInj k k' _ _ h := by
    simp only [auctionTable, List.cons.injEq, and_true] at h
    exact Prod.ext h.1 h.2
  keyLen ix h v v' := by
    simp only [auctionTable, List.mem_cons, List.not_mem_nil, or_false] at h
    rcases h with rfl | rfl <;> rfl
  pkNs ix h := by
    simp only [auctionTable, List.mem_cons, List.not_mem_nil, or_false] at h
    rcases h with rfl | rfl <;> rfl
  short := by decide +kernel
  last := by decide +kernel
  distinct := by decide +kernel

/-- namespaces of all tables -/
def allSpaces : List Bytes := minTable.spaces ++ auctionTable.spaces

/-- The store holds the state, and nothing but its records and index entries. -/
structure Holds (r : Raw) (s : State) : Prop where
  config : r.get? configKey = some (.config s.config)
  halt : r.get? haltKey = some (.halt s.prevBlock s.windows)
  mins : minTable.Rep (fun _ => True) r s.minReserve
  auctions : auctionTable.Rep (fun _ => True) r s.auctions
  ends : ∀ k a, s.auctions.get? k = some a → a.key = k ∧ ∀ e, a.endTime = some e → e < 2^64
  rest : ∀ b c, r.get? b = some c → b ∈ [configKey, haltKey, versionKey] ∨ ∃ n ∈ allSpaces, ∃ u, b = comp n ++ u

theorem item_config : ∀ u, configKey ≠ 0 :: u := ne_zero (by decide +kernel)
theorem item_halt : ∀ u, haltKey ≠ 0 :: u := ne_zero (by decide +kernel)
theorem item_version : ∀ u, versionKey ≠ 0 :: u := ne_zero (by decide +kernel)

/-- The store while the contract is being set up. -/
structure Part (r : Raw) (s : State) : Prop where
  mins : minTable.Rep (fun _ => True) r s.minReserve
  auctions : auctionTable.Rep (fun _ => True) r s.auctions
  ends : ∀ k a, s.auctions.get? k = some a → a.key = k ∧ ∀ e, a.endTime = some e → e < 2^64
  rest : ∀ b c, r.get? b = some c → b ∈ [configKey, haltKey, versionKey] ∨ ∃ n ∈ allSpaces, ∃ u, b = comp n ++ u

theorem Part.write {r r' : Raw} {s : State} (h : Part r s) {w : Write} (ht : w.Typed) (hw : w.raw r = some r') :
    Part r' (w.app s) := by
  have d1 : ∀ n ∈ minTable.spaces, n.length < 65536 := minGood.short
  have d2 : ∀ n ∈ auctionTable.spaces, n.length < 65536 := auctionGood.short
  have s1 : ∀ n ∈ minTable.spaces, n.length < 256 := by decide +kernel
  have s2 : ∀ n ∈ auctionTable.spaces, n.length < 256 := by decide +kernel
  have tab : ∀ (ns : List Bytes), (∀ n ∈ ns, n ∈ allSpaces) → (∀ b, Outside ns b → r'.get? b = r.get? b) →
      ∀ b c, r'.get? b = some c → b ∈ [configKey, haltKey, versionKey] ∨ ∃ n ∈ allSpaces, ∃ u, b = comp n ++ u := by
    intro ns hns hf b c hb
    by_cases ho : Outside ns b
    · rw [hf b ho] at hb; exact h.rest b c hb
    · right
      unfold Outside at ho
      simp only [Classical.not_forall] at ho
      obtain ⟨n, hn, u, hu⟩ := ho
      exact ⟨n, hns n hn, u, Classical.not_not.mp hu⟩
  have item : ∀ (k : Bytes) (c : Cell), k ∈ [configKey, haltKey, versionKey] → r' = r.insert k c →
      ∀ b c, r'.get? b = some c → b ∈ [configKey, haltKey, versionKey] ∨ ∃ n ∈ allSpaces, ∃ u, b = comp n ++ u := by
    intro k c hk e b c' hb
    rw [e, AMap.get?_insert] at hb
    split at hb
    · rename_i e'; subst e'; exact Or.inl hk
    · exact h.rest b c' hb
  cases w with
  | config c =>
    have e : r' = r.insert configKey (.config c) := by cases hw; rfl
    have hrest := item _ _ (by simp) e
    subst e
    exact ⟨h.mins.item s1 item_config _, h.auctions.item s2 item_config _, h.ends, hrest⟩
  | halt n ws =>
    have e : r' = r.insert haltKey (.halt n ws) := by cases hw; rfl
    have hrest := item _ _ (by simp) e
    subst e
    exact ⟨h.mins.item s1 item_halt _, h.auctions.item s2 item_halt _, h.ends, hrest⟩
  | version n v =>
    have e : r' = r.insert versionKey (.version n v) := by cases hw; rfl
    have hrest := item _ _ (by simp) e
    subst e
    exact ⟨h.mins.item s1 item_version _, h.auctions.item s2 item_version _, h.ends, hrest⟩
  | min d n =>
    have hf := fun b => save_frame minGood hw (b := b)
    exact ⟨h.mins.save minGood trivial hw, h.auctions.other auctionGood d1 (by decide +kernel) hf, h.ends, tab _ (by decide +kernel) hf⟩
  | rmMin d =>
    have hf := fun b => remove_frame minGood hw (b := b)
    exact ⟨h.mins.remove minGood trivial hw, h.auctions.other auctionGood d1 (by decide +kernel) hf, h.ends, tab _ (by decide +kernel) hf⟩
  | auction a =>
    have hf := fun b => save_frame auctionGood hw (b := b)
    exact ⟨h.mins.other minGood d2 (by decide +kernel) hf, h.auctions.save auctionGood trivial hw,
      insert_mem (P := fun k (a : Auction) => a.key = k ∧ ∀ e, a.endTime = some e → e < 2^64) h.ends ⟨rfl, ht⟩,
      tab _ (by decide +kernel) hf⟩
  | rmAuction k =>
    have hf := fun b => remove_frame auctionGood hw (b := b)
    exact ⟨h.mins.other minGood d2 (by decide +kernel) hf, h.auctions.remove auctionGood trivial hw,
      erase_mem (P := fun k (a : Auction) => a.key = k ∧ ∀ e, a.endTime = some e → e < 2^64) h.ends, tab _ (by decide +kernel) hf⟩

theorem Part.writes {ws : List Write} : ∀ {r r' : Raw} {s : State}, Part r s → (∀ w ∈ ws, w.Typed) → rawAll ws r = some r' →
    Part r' (ws.foldl Write.app s) := by
  induction ws with
  | nil => intro r r' s h _ hr; cases hr; exact h
  | cons w ws ih =>
    intro r r' s h ht hr
    unfold rawAll at hr
    cases hw : w.raw r with
    | none => rw [hw] at hr; cases hr
    | some r1 =>
      rw [hw, Option.bind_some] at hr
      exact ih (h.write (ht w (by simp)) hw) (fun x hx => ht x (by simp [hx])) hr

theorem config_write {r r' : Raw} {s : State} {w : Write} (h : r.get? configKey = some (.config s.config)) (hw : w.raw r = some r') :
    r'.get? configKey = some (.config (w.app s).config) := by
  have s1 : ∀ n ∈ minTable.spaces, n.length < 256 := by decide +kernel
  have s2 : ∀ n ∈ auctionTable.spaces, n.length < 256 := by decide +kernel
  cases w with
  | config c => cases hw; simp [Write.app]
  | halt n ws => cases hw; rw [AMap.get?_insert, if_neg (by decide +kernel)]; exact h
  | version n v => cases hw; rw [AMap.get?_insert, if_neg (by decide +kernel)]; exact h
  | min d n => rw [save_frame minGood hw (outside_item s1 item_config)]; exact h
  | rmMin d => rw [remove_frame minGood hw (outside_item s1 item_config)]; exact h
  | auction a => rw [save_frame auctionGood hw (outside_item s2 item_config)]; exact h
  | rmAuction k => rw [remove_frame auctionGood hw (outside_item s2 item_config)]; exact h

theorem halt_write {r r' : Raw} {s : State} {w : Write} (h : r.get? haltKey = some (.halt s.prevBlock s.windows)) (hw : w.raw r = some r') :
    r'.get? haltKey = some (.halt (w.app s).prevBlock (w.app s).windows) := by
  have s1 : ∀ n ∈ minTable.spaces, n.length < 256 := by decide +kernel
  have s2 : ∀ n ∈ auctionTable.spaces, n.length < 256 := by decide +kernel
  cases w with
  | config c => cases hw; rw [AMap.get?_insert, if_neg (by decide +kernel)]; exact h
  | halt n ws => cases hw; simp [Write.app]
  | version n v => cases hw; rw [AMap.get?_insert, if_neg (by decide +kernel)]; exact h
  | min d n => rw [save_frame minGood hw (outside_item s1 item_halt)]; exact h
  | rmMin d => rw [remove_frame minGood hw (outside_item s1 item_halt)]; exact h
  | auction a => rw [save_frame auctionGood hw (outside_item s2 item_halt)]; exact h
  | rmAuction k => rw [remove_frame auctionGood hw (outside_item s2 item_halt)]; exact h

theorem items_writes {ws : List Write} : ∀ {r r' : Raw} {s : State},
    rawAll ws r = some r' →
    (r.get? configKey = some (.config s.config) → r'.get? configKey = some (.config (ws.foldl Write.app s).config)) ∧
    (r.get? haltKey = some (.halt s.prevBlock s.windows) →
      r'.get? haltKey = some (.halt (ws.foldl Write.app s).prevBlock (ws.foldl Write.app s).windows)) := by
  induction ws with
  | nil => intro r r' s hr; cases hr; exact ⟨id, id⟩
  | cons w ws ih =>
    intro r r' s hr
    unfold rawAll at hr
    cases hw : w.raw r with
    | none => rw [hw] at hr; cases hr
    | some r1 =>
      rw [hw, Option.bind_some] at hr
      exact ⟨fun h => (ih hr).1 (config_write h hw), fun h => (ih hr).2 (halt_write h hw)⟩

theorem Holds.writes {ws : List Write} {r r' : Raw} {s : State} (h : Holds r s) (ht : ∀ w ∈ ws, w.Typed) (hr : rawAll ws r = some r') :
    Holds r' (ws.foldl Write.app s) := by
  have := Part.writes ⟨h.mins, h.auctions, h.ends, h.rest⟩ ht hr
  exact ⟨(items_writes hr).1 h.config, (items_writes hr).2 h.halt, this.mins, this.auctions, this.ends, this.rest⟩

theorem setMin_writes : ∀ {cs : List Coin} {m m' : AMap Denom Nat}, setMinReserve cs m = .ok m' → ∀ s : State, s.minReserve = m →
    (cs.map (fun x => Write.min x.denom x.amount)).foldl Write.app s = { s with minReserve := m' }
  | [], m, m', h, s, hs => by cases h; rw [← hs]; rfl
  | c :: cs, m, m', h, s, hs => by
    unfold setMinReserve at h
    rw [bind_ok] at h
    obtain ⟨_, _, h⟩ := h
    rw [List.map_cons, List.foldl_cons, setMin_writes h _ (by simp [Write.app, hs])]
    rfl

theorem unsetMin_writes : ∀ {ds : List Denom} {m m' : AMap Denom Nat}, unsetMinReserve ds m = .ok m' → ∀ s : State, s.minReserve = m →
    (ds.map Write.rmMin).foldl Write.app s = { s with minReserve := m' }
  | [], m, m', h, s, hs => by cases h; rw [← hs]; rfl
  | c :: cs, m, m', h, s, hs => by
    unfold unsetMinReserve at h
    rw [bind_ok] at h
    obtain ⟨_, _, h⟩ := h
    rw [List.map_cons, List.foldl_cons, unsetMin_writes h _ (by simp [Write.app, hs])]
    rfl

theorem rawAll_append {ws ws' : List Write} : ∀ {r : Raw}, rawAll (ws ++ ws') r = (rawAll ws r).bind (rawAll ws') := by
  induction ws with
  | nil => intro r; rfl
  | cons w ws ih =>
    intro r
    show (w.raw r).bind (rawAll (ws ++ ws')) = ((w.raw r).bind (rawAll ws)).bind (rawAll ws')
    cases w.raw r with
    | none => rfl
    | some r1 => exact ih

theorem Holds.init {p : Params} {c : Config} {mins : List Coin} {s : State} {r : Raw} {name version : Bytes}
    (h : instantiate p c mins = .ok s) (hr : rawInit name version s.config mins = some r) : Holds r s := by
  unfold instantiate at h
  simp only [bind_ok] at h
  obtain ⟨_, _, _, _, m, hm, h⟩ := h
  cases h
  let s0 : State := { config := c, minReserve := .empty, auctions := .empty, prevBlock := 0, windows := [] }
  have h0 : Part .empty s0 := ⟨.empty, .empty, fun k a h => by simp [s0] at h, fun b c h => by simp at h⟩
  let mid : List Write := mins.map (fun x => .min x.denom x.amount)
  have hr' : rawAll ([.version name version, .config c] ++ (mid ++ [.halt 0 []])) .empty = some r := by
    rw [← List.append_assoc]; exact hr
  have ty : ∀ w ∈ [Write.version name version, Write.config c] ++ (mid ++ [Write.halt 0 []]), w.Typed := by
    intro w hw
    simp only [mid, List.mem_append, List.mem_cons, List.not_mem_nil, or_false, List.mem_map] at hw
    rcases hw with (rfl | rfl) | ⟨x, _, rfl⟩ | rfl <;> trivial
  have hp := h0.writes ty hr'
  have em : mid.foldl Write.app s0 = { s0 with minReserve := m } := setMin_writes hm s0 rfl
  have e2 : (mid ++ [Write.halt 0 []]).foldl Write.app s0 = { s0 with minReserve := m } := by
    rw [List.foldl_append, em]; rfl
  have e : ([Write.version name version, Write.config c] ++ (mid ++ [Write.halt 0 []])).foldl Write.app s0 =
      { s0 with minReserve := m } := by
    rw [List.foldl_append]; exact e2
  rw [e] at hp
  refine ⟨?_, ?_, hp.mins, hp.auctions, hp.ends, hp.rest⟩
  · rw [rawAll_append] at hr'
    have hr2 : rawAll (mid ++ [.halt 0 []])
        ((AMap.empty.insert versionKey (.version name version)).insert configKey (.config c)) = some r := hr'
    have := (items_writes (s := s0) hr2).1 (by simp [s0])
    rw [e2] at this
    exact this
  · rw [← List.append_assoc, rawAll_append] at hr'
    cases h1 : rawAll ([.version name version, .config c] ++ mid) .empty with
    | none => rw [h1] at hr'; cases hr'
    | some r1 => rw [h1] at hr'; cases hr'; simp

theorem Spec.OnStore.holds {p : Params} {s : State} {r : Raw} (h : OnStore p s r) : Holds r s := by
  induction h with
  | init h hr => exact Holds.init h hr
  | call hs h ht hw hr ih => rw [hw]; exact ih.writes ht hr
  | sudo hs h ht hw hr ih => rw [hw]; exact ih.writes ht hr
  | migrate hs hr ih => exact ih.writes (ws := [.version _ _]) (by intro w hw; simp at hw; subst hw; trivial) hr

theorem endOf_eq (a : Auction) : endOf a = a.endKey := by
  unfold endOf Auction.endKey
  cases a.endTime <;> rfl

/-- The store has exactly the cells of the state (besides the contract version). -/
theorem C105_cells {p : Params} {s : State} {r : Raw} (h : OnStore p s r) {b : Bytes} {c : Cell} (hb : b ≠ str "contract_info") :
    r.get? b = some c ↔ CellOf s b c := by
  have H := h.holds
  constructor
  · intro hc
    rcases H.rest b c hc with h1 | ⟨n, hn, u, rfl⟩
    · simp only [List.mem_cons, List.not_mem_nil, or_false] at h1
      rcases h1 with rfl | rfl | rfl
      · rw [H.config] at hc; cases hc; exact .config
      · rw [H.halt] at hc; cases hc; exact .halt
      · exact absurd rfl hb
    · simp only [allSpaces, List.mem_append] at hn
      rcases hn with hn | hn
      · simp only [Table.spaces, minTable, List.map_nil, List.mem_cons, List.not_mem_nil, or_false] at hn
        subst hn
        obtain ⟨k, v, h1, rfl, rfl⟩ := (H.mins.prim u c).mp hc
        exact .min _ v h1
      · simp only [Table.spaces, auctionTable, List.map_cons, List.map_nil, List.mem_cons, List.not_mem_nil, or_false] at hn
        rcases hn with rfl | rfl | rfl
        · obtain ⟨k, v, h1, rfl, rfl⟩ := (H.auctions.prim u c).mp hc
          exact .auction k.1 k.2 v h1
        · obtain ⟨k, v, h1, rfl, rfl⟩ := (H.auctions.idx sellerIx (by simp [auctionTable]) u c).mp hc
          exact .seller k.1 k.2 v h1
        · obtain ⟨k, v, h1, rfl, rfl⟩ := (H.auctions.idx endIx (by simp [auctionTable]) u c).mp hc
          have := CellOf.ends k.1 k.2 v h1
          rw [endOf_eq] at this
          exact this
  · intro hc
    cases hc with
    | config => exact H.config
    | halt => exact H.halt
    | min k d h1 => exact (H.mins.prim _ _).mpr ⟨k, d, h1, rfl, rfl⟩
    | auction coll tok v h1 => exact (H.auctions.prim _ _).mpr ⟨_, v, h1, rfl, rfl⟩
    | seller coll tok v h1 => exact (H.auctions.idx sellerIx (by simp [auctionTable]) _ _).mpr ⟨_, v, h1, rfl, rfl⟩
    | ends coll tok v h1 =>
      rw [endOf_eq]
      exact (H.auctions.idx endIx (by simp [auctionTable]) _ _).mpr ⟨_, v, h1, rfl, rfl⟩

/-- Records are read back from the store. -/
theorem C105_reads {p : Params} {s : State} {r : Raw} (h : OnStore p s r) :
    rawConfig r = some (queryConfig s) ∧ rawHalt r = some (queryHaltManager s) ∧
    (∀ d, minTable.load r d = s.minReserve.get? d) ∧
    (∀ coll tok, coll.length < 65536 → auctionTable.load r (coll, tok) = queryAuction s coll tok) := by
  have H := h.holds
  refine ⟨by unfold rawConfig; rw [H.config]; rfl, by unfold rawHalt; rw [H.halt]; rfl, fun k => H.mins.load minGood trivial ?_,
    fun coll tok hl => H.auctions.load auctionGood trivial ?_⟩
  · exact (fits_cons (by simp [minTable])).mpr ⟨by decide +kernel, rfl⟩
  · have : fits [coll, tok] = true := by simp [fits, hl]
    exact (fits_cons (by simp [auctionTable])).mpr ⟨by decide +kernel, this⟩

theorem Holds.short {r : Raw} {s : State} (H : Holds r s) {k : Key} {a : Auction} (h : s.auctions.get? k = some a) :
    k.1.length < 65536 ∧ a.seller.length < 65536 ∧ a.key = k ∧ a.endKey < 2^64 := by
  have hf := (H.auctions.fit k a h).2
  have h1 := okay_idx hf (ix := sellerIx) (by simp [auctionTable])
  rw [fits_append (by simp [auctionTable])] at h1
  have h2 := h1.2
  simp only [auctionTable, fits, Bool.and_true, decide_eq_true_eq] at h2
  refine ⟨h2, h1.1 _ (by simp [sellerIx]), (H.ends k a h).1, ?_⟩
  have h3 := (H.ends k a h).2
  unfold Auction.endKey
  cases he : a.endTime with
  | none => decide
  | some e => exact Nat.lt_of_le_of_lt (Nat.div_le_self _ _) (h3 e he)

theorem keyBytes_ord (j j' : Key) (h : j.1.length < 65536) (h' : j'.1.length < 65536) : bLe (keyBytes j) (keyBytes j') = keyLe j j' :=
  bLe_comp _ _ h h'

theorem endBytes_ord (j j' : Nat × Key) (h : j.1 < 2^64 ∧ j.2.1.length < 65536) (h' : j'.1 < 2^64 ∧ j'.2.1.length < 65536) :
    bLe (endBytes j) (endBytes j') = lexLe natLe keyLe j j' :=
  (bLe_compBe _ _ (by simpa using h.1) (by simpa using h'.1)).trans (lexLe_congr (keyBytes_ord _ _ h.2 h'.2))


theorem endEntries_index (s : State) : endEntries s = index s.auctions (fun _ => true) (fun k a => (a.endKey, pkBytes k)) := by
  unfold endEntries index
  rw [List.filter_eq_self.mpr (fun _ _ => rfl)]

/-- Listing an index of the store gives the answer of the typed query, and the auctions due. -/
theorem C105_listings {p : Params} {s : State} {r : Raw} (h : OnStore p s r) :
    (∀ desc start limit, rawMinReservePrices r desc start limit = some (queryMinReservePrices s desc start limit)) ∧
    (∀ seller desc start limit, seller.length < 65535 → (∀ k ∈ start, k.1.length < 65536) →
      rawAuctionsBySeller r seller desc start limit = some (queryAuctionsBySeller s seller desc start limit)) ∧
    (∀ endTime desc start limit, endTime < 2^64 → (∀ k ∈ start, k.1.length < 65536) →
      rawAuctionsByEndTime r endTime desc start limit = some (queryAuctionsByEndTime s endTime desc start limit)) ∧
    (∀ ctx : Ctx, ctx.time < 2^64 → rawDue ctx s.config r = some (dueAuctions ctx s)) := by
  have H := h.holds
  have cend : Covers auctionTable endIx [] s.auctions (fun j : Nat × Key => j.1 < 2^64 ∧ j.2.1.length < 65536) (lexLe natLe keyLe)
      endBytes (fun _ => true) (fun k a => (a.endKey, k)) :=
    ⟨by simp [auctionTable], by simp, by simp, fun k v hv => by simp, fun k v hv _ => ⟨⟨(H.short hv).2.2.2, (H.short hv).1⟩, rfl⟩, endBytes_ord⟩
  refine ⟨fun desc start limit => ?_, fun seller desc start limit hs hk => ?_, fun endTime desc start limit he hk => ?_, fun ctx ht => ?_⟩
  · have := entries_eq (desc := desc) minGood H.mins bytesLin (D := fun _ => True) (enc := fun k => k) (key := fun k => k)
      (fun k v hv => ⟨trivial, rfl⟩) (fun _ _ _ _ => rfl) (mn := if desc then none else start.map .excl)
      (mx := if desc then start.map .excl else none) (fun _ _ => trivial) (fun _ _ => trivial) (querySize limit)
    rw [QBound_map_id, QBound_map_id] at this
    unfold rawMinReservePrices queryMinReservePrices
    rw [this, page_true, Option.map_some, scan_map bLe (fun e : Denom × Nat => (⟨e.1, e.2⟩ : Coin)), ← List.map_take, List.map_map,
      List.map_map, index, List.filter_eq_self.mpr (fun _ _ => rfl), List.map_id'']
    · rfl
    · intro _; rfl
  · unfold rawAuctionsBySeller queryAuctionsBySeller
    simp only
    rw [(start_bound keyBytes desc start).1, (start_bound keyBytes desc start).2, page_true]
    refine list_eq auctionGood H.auctions keyLin (D := fun k : Key => k.1.length < 65536)
      ⟨by simp [auctionTable], by simp; omega, by simp [hs], fun k v hv => by simp [sellerIx], fun k v hv _ => ⟨(H.short hv).1, rfl⟩, keyBytes_ord⟩
      (bound_mem hk desc).1 (bound_mem hk desc).2 _
  · unfold rawAuctionsByEndTime queryAuctionsByEndTime
    have hd : endTime < 2^64 ∧ (start.getD ([], [])).1.length < 65536 := by
      refine ⟨he, ?_⟩
      cases start with
      | none => decide
      | some k => exact hk k (by simp)
    have hd' : U64MAX < 2^64 ∧ ([] : Bytes).length < 65536 := by decide
    have one : ∀ {j : Nat × Key}, (j.1 < 2^64 ∧ j.2.1.length < 65536) →
        ∀ b ∈ some (QBound.excl j), b.key.1 < 2^64 ∧ b.key.2.1.length < 65536 := by
      intro j hj b hb; cases hb; exact hj
    cases desc with
    | true =>
      exact list_eq auctionGood H.auctions endLin cend (desc := true) (mn := none) (mx := some (.excl _))
        (fun _ h => by cases h) (one hd) _
    | false =>
      exact list_eq auctionGood H.auctions endLin cend (desc := false) (mn := some (.excl _)) (mx := some (.excl _))
        (one hd) (one (j := (U64MAX, ([], []))) hd') _
  · have hd : secs ctx.time + 1 < 2^64 := by unfold secs NS; omega
    have hk : pkBytes ([], []) = rawKey ([], []) := (rawKey_pkBytes _).symm
    unfold rawDue dueAuctions
    have cdue : Covers auctionTable endIx [] s.auctions (fun j : Nat × Bytes => j.1 < 2^64) pkLe
        (fun j => join [be 8 j.1, j.2]) (fun _ => true) (fun k a => (a.endKey, pkBytes k)) := by
      refine ⟨by simp [auctionTable], by simp, by simp, fun k v hv => by simp, fun k v hv _ => ⟨(H.short hv).2.2.2, ?_⟩, fun j j' hj hj' => ?_⟩
      · rw [← rawKey_pkBytes]; rfl
      · rw [pkLe_lex]; exact bLe_compBe _ _ (by simpa using hj) (by simpa using hj')
    have := list_eq auctionGood H.auctions pkLin cdue (desc := false) (mn := none) (mx := some (.excl (secs ctx.time + 1, pkBytes ([], []))))
      (fun _ h => by cases h) (fun b hb => by cases hb; exact hd) (s.config.maxSettle % 2^32)
    rw [← endEntries_index, hk] at this
    exact this

/-! Every call consists of such writes. -/

/-- A write whose components are short enough. -/
def Write.Okay : Write → Prop
  | .auction a => a.collection.length < 65536 ∧ a.seller.length < 65536 ∧ ∀ e, a.endTime = some e → e < 2^64
  | .rmAuction k => k.1.length < 65536
  | _ => True

theorem raw_some {w : Write} (hw : w.Okay) (r : Raw) : w.Typed ∧ ∃ r', w.raw r = some r' := by
  have e8 : ∀ n, (be 8 n).length = 8 := be_length 8
  cases w with
  | config c => exact ⟨trivial, _, rfl⟩
  | halt n ws => exact ⟨trivial, _, rfl⟩
  | version n v => exact ⟨trivial, _, rfl⟩
  | min d n => exact ⟨trivial, save_some rfl⟩
  | rmMin d => exact ⟨trivial, remove_some rfl⟩
  | auction a =>
    obtain ⟨h1, h2, h3⟩ := hw
    exact ⟨h3, save_some (by simp [Table.okay, auctionTable, sellerIx, endIx, fits, Auction.key, h1, h2, e8]; decide +kernel)⟩
  | rmAuction k =>
    have h1 : k.1.length < 65536 := hw
    exact ⟨trivial, remove_some (by simp [auctionTable, fits, h1]; decide +kernel)⟩

theorem rawAll_some {ws : List Write} (hw : ∀ w ∈ ws, w.Okay) : ∀ r : Raw, ∃ r', rawAll ws r = some r' := by
  induction ws with
  | nil => intro r; exact ⟨r, rfl⟩
  | cons w ws ih =>
    intro r
    obtain ⟨_, r1, h1⟩ := raw_some (hw w (by simp)) r
    obtain ⟨r2, h2⟩ := ih (fun x hx => hw x (by simp [hx])) r1
    exact ⟨r2, by unfold rawAll; rw [h1]; exact h2⟩

theorem settled_writes {p : Params} {ctx : Ctx} {a : Auction} {c : Config} {ws : List HaltWindow} {s s' : State} {msgs : List Msg}
    (h : Settled p ctx a c ws s s' msgs) (h1 : a.collection.length < 65536) (h2 : a.seller.length < 65536) :
    ∃ w : Write, s' = w.app s ∧ w.Okay := by
  cases h with
  | postponed e e' he hle hin hov he' =>
    refine ⟨.auction { a with endTime := some e' }, rfl, h1, h2, fun x hx => ?_⟩
    cases hx
    exact Nat.lt_of_le_of_lt hov (by decide)
  | sold => exact ⟨.rmAuction a.key, rfl, h1⟩

theorem batch_writes {p : Params} {ctx : Ctx} {c : Config} {ws : List HaltWindow} {as : List Auction} {s s' : State} {msgs : List Msg}
    (h : Batch p ctx c ws as s s' msgs) (ha : ∀ a ∈ as, a.collection.length < 65536 ∧ a.seller.length < 65536) :
    ∃ l : List Write, s' = l.foldl Write.app s ∧ ∀ w ∈ l, w.Okay := by
  induction h with
  | nil s => exact ⟨[], rfl, by simp⟩
  | cons h _ ih =>
    obtain ⟨w, hw, ok⟩ := settled_writes h (ha _ (by simp)).1 (ha _ (by simp)).2
    obtain ⟨l, hl, oks⟩ := ih (fun a h => ha a (by simp [h]))
    refine ⟨w :: l, by rw [List.foldl_cons, ← hw, hl], fun x hx => ?_⟩
    rcases List.mem_cons.mp hx with rfl | hx
    · exact ok
    · exact oks x hx

theorem execute_writes {p : Params} {ctx : Ctx} {sender : Addr} {funds : List Coin} {m : Exec} {s s' : State} {msgs : List Msg} {r : Raw}
    (H : Holds r s) (hn : ∀ coll tok price dur rec, m = .create coll tok price dur rec → coll.length < 65536 ∧ sender.length < 65536)
    (h : execute p ctx sender funds m s = .ok (s', msgs)) :
    ∃ ws : List Write, s' = ws.foldl Write.app s ∧ ∀ w ∈ ws, w.Okay := by
  have one : ∀ (w : Write), w.Okay → ∀ x ∈ [w], x.Okay := by
    intro w hw x hx; simp at hx; subst hx; exact hw
  have lens : ∀ {k a}, s.auctions.get? k = some a → a.collection.length < 65536 ∧ a.seller.length < 65536 := by
    intro k a ha
    obtain ⟨h1, h2, h3, _⟩ := H.short ha
    exact ⟨by rw [← h3] at h1; exact h1, h2⟩
  cases execute_eff h with
  | create coll tok price dur rec =>
    exact ⟨[.auction ⟨coll, tok, sender, price, dur, none, rec, none, none⟩], rfl, one _ ⟨(hn _ _ _ _ _ rfl).1, (hn _ _ _ _ _ rfl).2, fun e he => by cases he⟩⟩
  | reserve coll tok price a min hv hf ha =>
    exact ⟨[.auction { a with reserve := price }], rfl, one _ ⟨(lens ha).1, (lens ha).2, (H.ends _ _ ha).2⟩⟩
  | cancel coll tok a hv hf ha => exact ⟨[.rmAuction a.key], rfl, one _ (lens ha).1⟩
  | bid1 coll tok a n m e hv ha hs hfunds hpos hm hge hend hb hov he =>
    refine ⟨[.auction { a with
      firstBid := some ctx.time, endTime := some e, highBid := some ⟨⟨a.reserve.denom, n⟩, sender⟩ }], rfl,
      one _ ⟨(lens ha).1, (lens ha).2, fun x hx => ?_⟩⟩
    cases hx
    exact Nat.lt_of_le_of_lt hov (by decide)
  | bid2 coll tok a n m f e e' hi hv ha hs hfunds hpos hm hge hend hb hh hz he he' =>
    refine ⟨[.auction { a with
      firstBid := some f, endTime := some e', highBid := some ⟨⟨a.reserve.denom, n⟩, sender⟩ }], rfl,
      one _ ⟨(lens ha).1, (lens ha).2, fun x hx => ?_⟩⟩
    cases hx
    split at he'
    · exact Nat.lt_of_le_of_lt he'.1 (by decide)
    · rw [he']; exact (H.ends _ _ ha).2 e he
  | settle coll tok a s' msgs hv hf ha hset =>
    obtain ⟨w, hw, ok⟩ := settled_writes hset (lens ha).1 (lens ha).2
    exact ⟨[w], hw, one w ok⟩

theorem sudo_writes {p : Params} {ctx : Ctx} {m : Sudo} {s s' : State} {msgs : List Msg} {r : Raw} (H : Holds r s)
    (h : sudo p ctx m s = .ok (s', msgs)) : ∃ ws : List Write, s' = ws.foldl Write.app s ∧ ∀ w ∈ ws, w.Okay := by
  cases sudo_eff h with
  | begin ws => exact ⟨[.halt (secs ctx.time) ws], rfl, by intro x hx; simp at hx; subst hx; trivial⟩
  | stop earliest s1 msgs _ _ hb =>
    have ha : ∀ a ∈ dueAuctions ctx s, a.collection.length < 65536 ∧ a.seller.length < 65536 := by
      intro a ha
      unfold dueAuctions at ha
      rw [List.mem_map] at ha
      obtain ⟨e, he, rfl⟩ := ha
      have hm := (mem_scan.mp (List.mem_of_mem_take he)).1
      rw [endEntries_index] at hm
      obtain ⟨k, hk, _⟩ := mem_index.mp hm
      obtain ⟨h1, h2, h3, _⟩ := H.short hk
      exact ⟨by rw [← h3] at h1; exact h1, h2⟩
    obtain ⟨l, hl, oks⟩ := batch_writes hb ha
    refine ⟨l ++ [.halt s1.prevBlock (dropStale s.windows earliest)], by rw [List.foldl_append, ← hl]; rfl, fun x hx => ?_⟩
    rcases List.mem_append.mp hx with hx | hx
    · exact oks x hx
    · simp at hx; subst hx; trivial
  | params u c => exact ⟨[.config c], rfl, by intro x hx; simp at hx; subst hx; trivial⟩
  | setMin cs m hm =>
    refine ⟨_, (setMin_writes hm s rfl).symm, fun x hx => ?_⟩
    simp only [List.mem_map] at hx
    obtain ⟨_, _, rfl⟩ := hx; trivial
  | unsetMin ds m hm =>
    refine ⟨_, (unsetMin_writes hm s rfl).symm, fun x hx => ?_⟩
    simp only [List.mem_map] at hx
    obtain ⟨_, _, rfl⟩ := hx; trivial

/-- Every successful call can be carried out on the store, unless an auction is created for a collection or by an account whose
address has 65536 bytes or more. -/
theorem C105_calls {p : Params} {s s' : State} {r : Raw} {ctx : Ctx} {msgs : List Msg} (h : OnStore p s r) :
    (∀ sender funds m, (∀ coll tok price dur rec, m = .create coll tok price dur rec → coll.length < 65536 ∧ sender.length < 65536) →
      execute p ctx sender funds m s = .ok (s', msgs) → ∃ r', OnStore p s' r') ∧
    (∀ m, sudo p ctx m s = .ok (s', msgs) → ∃ r', OnStore p s' r') := by
  constructor
  · intro sender funds m hn hx
    obtain ⟨ws, h1, h2⟩ := execute_writes h.holds hn hx
    obtain ⟨r', hr⟩ := rawAll_some h2 r
    exact ⟨r', .call h hx (fun w hw => (raw_some (h2 w hw) r).1) h1 hr⟩
  · intro m hx
    obtain ⟨ws, h1, h2⟩ := sudo_writes h.holds hx
    obtain ⟨r', hr⟩ := rawAll_some h2 r
    exact ⟨r', .sudo h hx (fun w hw => (raw_some (h2 w hw) r).1) h1 hr⟩

/-- Namespaces of the contract are distinct. -/
theorem C105_namespaces : ([str "cfg", str "hm", str "contract_info"] ++ [str "mrp", str "a", str "a__s", str "a__et"]).Nodup := by
  decide +kernel

namespace Sample

def auc : Auction := ⟨coll, tok, alice, ⟨ust, 100⟩, 60, none, none, none, none⟩
def auc3 : Auction := { auc with firstBid := some 1000000000000, endTime := some 1060000000000, highBid := some ⟨⟨ust, 100⟩, bob⟩ }
def raw0 : Raw := (rawInit [109] [49] cfg [⟨ust, 10⟩]).getD .empty
def raw1 : Raw := (rawAll [.halt 1000 []] raw0).getD .empty
def raw2 : Raw := (rawAll [.auction auc] raw1).getD .empty
def raw3 : Raw := (rawAll [.auction auc3] raw2).getD .empty

theorem onStore3 : OnStore P s3 raw3 := by
  have h0 : OnStore P s0 raw0 := .init init0 (name := [109]) (version := [49]) rfl
  have h1 : OnStore P s1 raw1 := .sudo h0 (srun_eq (c := ctx 1000000) (m := .beginBlock) (s := s0) (by decide +kernel))
    (ws := [.halt 1000 []]) (by intro w hw; simp at hw; subst hw; trivial) rfl rfl
  have h2 : OnStore P s2 raw2 := .call h1 (run_eq (c := ctx 1000000 (some alice)) (sender := alice) (funds := [⟨ust, 5⟩])
    (m := .create coll tok ⟨ust, 100⟩ 60 none) (by decide +kernel)) (ws := [.auction auc])
    (by intro w hw; simp at hw; subst hw; intro e he; cases he) rfl rfl
  exact .call h2 (run_eq (c := ctx 1000000) (sender := bob) (funds := [⟨ust, 100⟩]) (m := .bid coll tok) (by decide +kernel))
    (ws := [.auction auc3]) (by intro w hw; simp at hw; subst hw; intro e he; cases he; decide) rfl rfl

end Sample

/-- The store of the sample: three items, a minimum price, and an auction with two index entries. The bid has moved the entry of
the end time index: nothing is left without end time; the auction is due at 1060 s, not before. -/
example : Sample.raw3.l.length = 7 ∧
    Sample.raw2.get? (comp (str "a__et") ++ (comp (be 8 (2^64 - 1)) ++ (comp Sample.coll ++ Sample.tok))) = some (.len 6) ∧
    Sample.raw3.get? (comp (str "a__et") ++ (comp (be 8 (2^64 - 1)) ++ (comp Sample.coll ++ Sample.tok))) = none ∧
    Sample.raw3.get? (comp (str "a__et") ++ (comp (be 8 1060) ++ (comp Sample.coll ++ Sample.tok))) = some (.len 6) ∧
    rawDue (Sample.ctx 1060000) Sample.cfg Sample.raw3 = some [Sample.auc3] ∧ rawDue (Sample.ctx 1059999) Sample.cfg Sample.raw3 = some [] ∧
    rawAuctionsBySeller Sample.raw3 Sample.alice false none none = some [Sample.auc3] ∧
    rawMinReservePrices Sample.raw3 false none none = some [⟨Sample.ust, 10⟩] := by
  decide +kernel

end Verif.Auction

/-
The storage below the typed maps: cw-storage-plus `Item`, `Map`, `IndexedMap` and `MultiIndex` as reads and writes of one
key-value store. Cells hold JSON; a cell type `C` with an encoder and a decoder stands for it. A key component longer than
65535 bytes panics (cw-storage-plus helpers.rs `encode_length`), here `none`.
-/
import Verif.Base.AMap
import Verif.Base.KeyEnc
import Verif.Base.Range

namespace Verif.Kv
open Verif

/-- cw-storage-plus helpers.rs `namespaces_with_key` / `nested_namespaces_with_key`: every component but the last carries its
length -/
def join : List Bytes → Bytes
  | [] => []
  | [a] => a
  | a :: b :: t => comp a ++ join (b :: t)

/-- helpers.rs `encode_length` does not panic -/
def fits : List Bytes → Bool
  | [] => true
  | [_] => true
  | a :: b :: t => decide (a.length < 65536) && fits (b :: t)

/-- prefix.rs: bytes in front of all keys that start with these components -/
def pfx (l : List Bytes) : Bytes := (l.map comp).flatten

/-- bytes of a string of ASCII characters -/
def str (s : String) : Bytes := s.toList.map (fun c => UInt8.ofNat c.toNat)

/-- indexes/multi.rs `MultiIndex::new(idx_fn, pk_namespace, idx_namespace)` -/
structure Index (V : Type) where
  key : V → List Bytes
  pkNs : Bytes
  ns : Bytes

/-- indexed_map.rs `IndexedMap`; a plain `Map` is one without indexes -/
structure Table (K V C : Type) where
  ns : Bytes
  pk : K → List Bytes
  idx : List (Index V)
  enc : V → C
  dec : C → Option V
  len : Nat → C
  unlen : C → Option Nat

section
variable {K V C : Type}

/-- key of a record -/
def Table.at (t : Table K V C) (k : K) : Bytes := join (t.ns :: t.pk k)

/-- key of an index entry: indexes/multi.rs `save`, `joined_extra_key` -/
def Table.idxAt (t : Table K V C) (k : K) (ix : Index V) (v : V) : Bytes := join (ix.ns :: ix.key v ++ t.pk k)

/-- no component of the keys written for a record is too long -/
def Table.okay (t : Table K V C) (k : K) (v : V) : Bool :=
  fits (t.ns :: t.pk k) && t.idx.all (fun ix => fits (ix.ns :: ix.key v ++ t.pk k))

/-- `may_load` -/
def Table.load (t : Table K V C) (r : AMap Bytes C) (k : K) : Option V := (r.get? (t.at k)).bind t.dec

/-- indexes/multi.rs `remove` for every index -/
def Table.delIdx (t : Table K V C) (k : K) (v : V) (r : AMap Bytes C) : AMap Bytes C :=
  t.idx.foldl (fun r ix => r.erase (t.idxAt k ix v)) r

/-- indexes/multi.rs `save` for every index: the cell holds the length of the primary key -/
def Table.putIdx (t : Table K V C) (k : K) (v : V) (r : AMap Bytes C) : AMap Bytes C :=
  t.idx.foldl (fun r ix => r.insert (t.idxAt k ix v) (t.len (join (t.pk k)).length)) r

/-- indexed_map.rs `replace`, first half -/
def Table.clear (t : Table K V C) (k : K) (old : Option V) (r : AMap Bytes C) : AMap Bytes C :=
  match old with
  | some o => t.delIdx k o r
  | none => r

/-- indexed_map.rs `save` -/
def Table.save (t : Table K V C) (r : AMap Bytes C) (k : K) (v : V) : Option (AMap Bytes C) :=
  if t.okay k v then some ((t.putIdx k v (t.clear k (t.load r k) r)).insert (t.at k) (t.enc v)) else none

/-- indexed_map.rs `remove` -/
def Table.remove (t : Table K V C) (r : AMap Bytes C) (k : K) : Option (AMap Bytes C) :=
  if fits (t.ns :: t.pk k) then some ((t.clear k (t.load r k) r).erase (t.at k)) else none

/-- cw-storage-plus helpers.rs, namespaces.rs `increment_last_byte`: with carry; the flag tells that all bytes were 255 -/
def incr : Bytes → Bool × Bytes
  | [] => (true, [])
  | x :: t =>
    if (incr t).1 then (if x = 255 then (true, 0 :: (incr t).2) else (false, (x + 1) :: (incr t).2)) else (false, x :: (incr t).2)

def incLast (p : Bytes) : Bytes := (incr p).2

/-- prefix.rs `calc_start_bound` -/
def startKey (p : Bytes) : Option (QBound Bytes) → Bytes
  | none => p
  | some (.incl b) => p ++ b
  | some (.excl b) => p ++ b ++ [0]

/-- prefix.rs `calc_end_bound` -/
def endKey (p : Bytes) : Option (QBound Bytes) → Bytes
  | none => incLast p
  | some (.excl b) => p ++ b
  | some (.incl b) => p ++ b ++ [0]

/-- prefix.rs `range_with_prefix`: `Storage::range` gives the cells from the first key up to, not including, the end key, in byte
order; the prefix is cut off by its length -/
def range (r : AMap Bytes C) (p : Bytes) (desc : Bool) (mn mx : Option (QBound Bytes)) : List (Bytes × C) :=
  (scan bLe r.l desc (some (.incl (startKey p mn))) (some (.excl (endKey p mx)))).map (fun e => (e.1.drop p.length, e.2))

/-- indexes/mod.rs `deserialize_multi_kv`: the end of the key of an index entry is the primary key; the record is read from the
primary namespace the index was made with -/
def Table.follow (t : Table K V C) (ix : Index V) (r : AMap Bytes C) (p : Bytes) (e : Bytes × C) : Option V :=
  (t.unlen e.2).bind fun n =>
    let key := p ++ e.1
    (r.get? (pfx [ix.pkNs] ++ key.drop (key.length - n))).bind t.dec

/-- indexes/multi.rs `prefix(..)` / `sub_prefix(..)` then `range(..).take(n)`, collected: fails if one record is missing -/
def Table.list (t : Table K V C) (ix : Index V) (r : AMap Bytes C) (pre : List Bytes) (desc : Bool)
    (mn mx : Option (QBound Bytes)) (n : Nat) : Option (List V) :=
  ((range r (pfx (ix.ns :: pre)) desc mn mx).take n).mapM (t.follow ix r (pfx (ix.ns :: pre)))

/-- the same with `.filter(..)` before `take`; a missing record passes the filter -/
def Table.listBy (t : Table K V C) (ix : Index V) (r : AMap Bytes C) (pre : List Bytes) (desc : Bool)
    (mn mx : Option (QBound Bytes)) (keep : V → Bool) (n : Nat) : Option (List V) :=
  ((((range r (pfx (ix.ns :: pre)) desc mn mx).map (t.follow ix r (pfx (ix.ns :: pre)))).filter (fun o => o.all keep)).take n).mapM id

/-- map.rs `range(..).take(n)` on the whole map, collected: keys below the namespace as bytes, and records -/
def Table.entries (t : Table K V C) (r : AMap Bytes C) (desc : Bool) (mn mx : Option (QBound Bytes)) (n : Nat) :
    Option (List (Bytes × V)) :=
  ((range r (pfx [t.ns]) desc mn mx).take n).mapM (fun e => (t.dec e.2).map (fun v => (e.1, v)))

/-! ### Specification -/

/-- Cells below a prefix, keys without the prefix. -/
def below (r : AMap Bytes C) (p : Bytes) : List (Bytes × C) :=
  r.l.filterMap (fun e => if p.isPrefixOf e.1 then some (e.1.drop p.length, e.2) else none)

/-- Cells below a prefix within bounds, in byte order. -/
def within (r : AMap Bytes C) (p : Bytes) (desc : Bool) (mn mx : Option (QBound Bytes)) : List (Bytes × C) :=
  scan bLe (below r p) desc mn mx

/-- The store holds the records of `m` and the matching index entries, and nothing else in these namespaces. -/
structure Table.Rep (t : Table K V C) (dom : K → Prop) [DecidableEq K] (r : AMap Bytes C) (m : AMap K V) : Prop where
  prim : ∀ b c, r.get? (comp t.ns ++ b) = some c ↔ ∃ k v, m.get? k = some v ∧ b = join (t.pk k) ∧ c = t.enc v
  idx : ∀ ix ∈ t.idx, ∀ b c, r.get? (comp ix.ns ++ b) = some c ↔
    ∃ k v, m.get? k = some v ∧ b = join (ix.key v ++ t.pk k) ∧ c = t.len (join (t.pk k)).length
  fit : ∀ k v, m.get? k = some v → dom k ∧ t.okay k v = true

/-- What a declaration of a table must satisfy. -/
structure Table.Good (t : Table K V C) (dom : K → Prop) : Prop where
  dec : ∀ v, t.dec (t.enc v) = some v
  unlen : ∀ n, t.unlen (t.len n) = some n
  ne : ∀ k, t.pk k ≠ []
  pkLen : ∀ k k', (t.pk k).length = (t.pk k').length
  pkInj : ∀ k k', dom k → dom k' → t.pk k = t.pk k' → k = k'
  keyLen : ∀ ix ∈ t.idx, ∀ v v', (ix.key v).length = (ix.key v').length
  pkNs : ∀ ix ∈ t.idx, ix.pkNs = t.ns
  short : ∀ n ∈ t.ns :: t.idx.map Index.ns, n.length < 65536
  last : ∀ n ∈ t.ns :: t.idx.map Index.ns, n ≠ [] ∧ n.getLast? ≠ some 255
  distinct : (t.ns :: t.idx.map Index.ns).Nodup

/-! ### Keys -/

theorem comp_inj {a b u v : Bytes} (ha : a.length < 65536) (hb : b.length < 65536) (h : comp a ++ u = comp b ++ v) :
    a = b ∧ u = v := by
  unfold comp at h
  rw [List.append_assoc, List.append_assoc] at h
  obtain ⟨h1, h2⟩ := List.append_inj h (by rw [be_length, be_length])
  have hl := be_inj (by simpa using ha) (by simpa using hb) h1
  exact List.append_inj h2 hl

theorem join_cons (a : Bytes) {l : List Bytes} (h : l ≠ []) : join (a :: l) = comp a ++ join l := by
  cases l with
  | nil => exact absurd rfl h
  | cons b t => rfl

theorem fits_cons {a : Bytes} {l : List Bytes} (h : l ≠ []) : fits (a :: l) = true ↔ a.length < 65536 ∧ fits l = true := by
  cases l with
  | nil => exact absurd rfl h
  | cons b t => simp [fits]

theorem join_append {p l : List Bytes} (h : l ≠ []) : join (p ++ l) = pfx p ++ join l := by
  induction p with
  | nil => rfl
  | cons a p ih =>
    have : p ++ l ≠ [] := by intro e; exact h (List.append_eq_nil_iff.mp e).2
    rw [List.cons_append, join_cons a this, ih]
    simp [pfx]

theorem join_inj : ∀ {l l' : List Bytes}, l.length = l'.length → fits l = true → fits l' = true → join l = join l' → l = l'
  | [], [], _, _, _, _ => rfl
  | [], _ :: _, h, _, _, _ => by simp at h
  | _ :: _, [], h, _, _, _ => by simp at h
  | [a], [b], _, _, _, h => by simpa [join] using h
  | [a], b :: c :: t, h, _, _, _ => by simp at h
  | a :: c :: t, [b], h, _, _, _ => by simp at h
  | a :: b :: t, a' :: b' :: t', hl, hf, hf', h => by
    have f1 := (fits_cons (a := a) (l := b :: t) (by simp)).mp hf
    have f2 := (fits_cons (a := a') (l := b' :: t') (by simp)).mp hf'
    obtain ⟨h1, h2⟩ := comp_inj f1.1 f2.1 h
    rw [h1, join_inj (by simpa using hl) f1.2 f2.2 h2]

theorem fits_append {p l : List Bytes} (h : l ≠ []) : fits (p ++ l) = true ↔ (∀ a ∈ p, a.length < 65536) ∧ fits l = true := by
  induction p with
  | nil => simp
  | cons a p ih =>
    have : p ++ l ≠ [] := by intro e; exact h (List.append_eq_nil_iff.mp e).2
    rw [List.cons_append, fits_cons this, ih]
    simp [and_assoc]

/-- Keys below a prefix: the components agree. -/
theorem pfx_inj : ∀ {p q : List Bytes} {u v : Bytes}, p.length = q.length → (∀ a ∈ p, a.length < 65536) →
    (∀ a ∈ q, a.length < 65536) → pfx p ++ u = pfx q ++ v → p = q ∧ u = v
  | [], [], _, _, _, _, _, h => ⟨rfl, by simpa [pfx] using h⟩
  | [], _ :: _, _, _, h, _, _, _ => by simp at h
  | _ :: _, [], _, _, h, _, _, _ => by simp at h
  | a :: p, b :: q, u, v, hl, hp, hq, h => by
    have e1 : pfx (a :: p) ++ u = comp a ++ (pfx p ++ u) := by simp [pfx]
    have e2 : pfx (b :: q) ++ v = comp b ++ (pfx q ++ v) := by simp [pfx]
    rw [e1, e2] at h
    obtain ⟨h1, h2⟩ := comp_inj (hp a (by simp)) (hq b (by simp)) h
    obtain ⟨h3, h4⟩ := pfx_inj (by simpa using hl) (fun x hx => hp x (by simp [hx])) (fun x hx => hq x (by simp [hx])) h2
    exact ⟨by rw [h1, h3], h4⟩

/-! ### Writes -/

theorem get?_delIdx (t : Table K V C) (k : K) (v : V) (r : AMap Bytes C) (b : Bytes) :
    (t.delIdx k v r).get? b = if ∃ ix ∈ t.idx, t.idxAt k ix v = b then none else r.get? b := by
  unfold Table.delIdx
  generalize t.idx = l
  induction l generalizing r with
  | nil => simp
  | cons ix l ih =>
    rw [List.foldl_cons, ih, AMap.get?_erase]
    by_cases h1 : ∃ i ∈ l, t.idxAt k i v = b
    · have h2 : ∃ i ∈ ix :: l, t.idxAt k i v = b := by
        obtain ⟨i, hi, e⟩ := h1; exact ⟨i, List.mem_cons_of_mem _ hi, e⟩
      rw [if_pos h1, if_pos h2]
    · rw [if_neg h1]
      by_cases h2 : t.idxAt k ix v = b
      · rw [if_pos h2, if_pos ⟨ix, by simp, h2⟩]
      · rw [if_neg h2, if_neg]
        rintro ⟨i, hi, e⟩
        rcases List.mem_cons.mp hi with rfl | hi
        · exact h2 e
        · exact h1 ⟨i, hi, e⟩

theorem get?_putIdx (t : Table K V C) (k : K) (v : V) (r : AMap Bytes C) (b : Bytes) :
    (t.putIdx k v r).get? b =
      if ∃ ix ∈ t.idx, t.idxAt k ix v = b then some (t.len (join (t.pk k)).length) else r.get? b := by
  unfold Table.putIdx
  generalize t.idx = l
  induction l generalizing r with
  | nil => simp
  | cons ix l ih =>
    rw [List.foldl_cons, ih, AMap.get?_insert]
    by_cases h1 : ∃ i ∈ l, t.idxAt k i v = b
    · have h2 : ∃ i ∈ ix :: l, t.idxAt k i v = b := by
        obtain ⟨i, hi, e⟩ := h1; exact ⟨i, List.mem_cons_of_mem _ hi, e⟩
      rw [if_pos h1, if_pos h2]
    · rw [if_neg h1]
      by_cases h2 : t.idxAt k ix v = b
      · rw [if_pos h2, if_pos ⟨ix, by simp, h2⟩]
      · rw [if_neg h2, if_neg]
        rintro ⟨i, hi, e⟩
        rcases List.mem_cons.mp hi with rfl | hi
        · exact h2 e
        · exact h1 ⟨i, hi, e⟩

end

section
variable {K V C : Type} {t : Table K V C} {dom : K → Prop}

theorem Table.at_eq (g : t.Good dom) (k : K) : t.at k = comp t.ns ++ join (t.pk k) := join_cons _ (g.ne k)

theorem Table.idxAt_eq (g : t.Good dom) (k : K) (ix : Index V) (v : V) :
    t.idxAt k ix v = comp ix.ns ++ join (ix.key v ++ t.pk k) := by
  unfold Table.idxAt
  rw [List.cons_append, join_cons]
  intro e; exact g.ne k (List.append_eq_nil_iff.mp e).2

theorem Table.Good.nsShort (g : t.Good dom) : t.ns.length < 65536 := g.short _ (by simp)
theorem Table.Good.ixShort (g : t.Good dom) {ix : Index V} (h : ix ∈ t.idx) : ix.ns.length < 65536 :=
  g.short _ (List.mem_cons_of_mem _ (List.mem_map_of_mem h))
theorem Table.Good.nsNe (g : t.Good dom) {ix : Index V} (h : ix ∈ t.idx) : ix.ns ≠ t.ns := by
  intro e
  have := (List.nodup_cons.mp g.distinct).1
  rw [← e] at this
  exact this (List.mem_map_of_mem h)
theorem Table.Good.ixInj (g : t.Good dom) {i j : Index V} (hi : i ∈ t.idx) (hj : j ∈ t.idx) (h : i.ns = j.ns) : i = j := by
  have := (List.nodup_cons.mp g.distinct).2
  rw [List.Nodup, List.pairwise_map] at this
  generalize t.idx = l at *
  induction l with
  | nil => cases hi
  | cons a l ih =>
    rw [List.pairwise_cons] at this
    rcases List.mem_cons.mp hi with rfl | hi' <;> rcases List.mem_cons.mp hj with rfl | hj'
    · rfl
    · exact absurd h (this.1 _ hj')
    · exact absurd h.symm (this.1 _ hi')
    · exact ih hi' hj' this.2

/-- The key of an index entry lies below the namespace of its index only. -/
theorem Table.idxAt_iff (g : t.Good dom) {k : K} {ix i : Index V} {v : V} {b : Bytes} (hx : ix ∈ t.idx) (hi : i ∈ t.idx) :
    t.idxAt k i v = comp ix.ns ++ b ↔ i = ix ∧ b = join (ix.key v ++ t.pk k) := by
  rw [t.idxAt_eq g]
  constructor
  · intro h
    obtain ⟨h1, h2⟩ := comp_inj (g.ixShort hi) (g.ixShort hx) h
    have := g.ixInj hi hx h1
    subst this
    exact ⟨rfl, h2.symm⟩
  · rintro ⟨rfl, rfl⟩; rfl

theorem Table.idxAt_ne (g : t.Good dom) {k : K} {i : Index V} {v : V} {b : Bytes} (hi : i ∈ t.idx) :
    t.idxAt k i v ≠ comp t.ns ++ b := by
  rw [t.idxAt_eq g]
  intro h
  exact g.nsNe hi (comp_inj (g.ixShort hi) g.nsShort h).1

theorem exists_idxAt (g : t.Good dom) {k : K} {ix : Index V} {v : V} {b : Bytes} (hx : ix ∈ t.idx) :
    (∃ i ∈ t.idx, t.idxAt k i v = comp ix.ns ++ b) ↔ b = join (ix.key v ++ t.pk k) := by
  constructor
  · rintro ⟨i, hi, h⟩; exact ((t.idxAt_iff g hx hi).mp h).2
  · intro h; exact ⟨ix, hx, (t.idxAt_iff g hx hx).mpr ⟨rfl, h⟩⟩

theorem okay_prim {k : K} {v : V} (h : t.okay k v = true) : fits (t.ns :: t.pk k) = true := by
  unfold Table.okay at h; rw [Bool.and_eq_true] at h; exact h.1

theorem okay_idx {k : K} {v : V} (h : t.okay k v = true) {ix : Index V} (hi : ix ∈ t.idx) :
    fits (ix.ns :: ix.key v ++ t.pk k) = true := by
  unfold Table.okay at h; rw [Bool.and_eq_true] at h
  exact List.all_eq_true.mp h.2 ix hi

theorem pk_join_inj (g : t.Good dom) {k k' : K} (hk : dom k) (hk' : dom k') (f : fits (t.ns :: t.pk k) = true)
    (f' : fits (t.ns :: t.pk k') = true) (h : join (t.pk k) = join (t.pk k')) : k = k' :=
  g.pkInj _ _ hk hk' (join_inj (g.pkLen _ _) ((fits_cons (g.ne k)).mp f).2 ((fits_cons (g.ne k')).mp f').2 h)

theorem idx_join_inj (g : t.Good dom) {k k' : K} {v v' : V} {ix : Index V} (hi : ix ∈ t.idx) (hk : dom k) (hk' : dom k')
    (f : t.okay k v = true) (f' : t.okay k' v' = true) (h : join (ix.key v ++ t.pk k) = join (ix.key v' ++ t.pk k')) : k = k' := by
  have hne : ∀ k v, ix.key v ++ t.pk k ≠ [] := fun k v e => g.ne k (List.append_eq_nil_iff.mp e).2
  have f1 := okay_idx f hi
  have f2 := okay_idx f' hi
  rw [List.cons_append, fits_cons (hne _ _)] at f1 f2
  have := join_inj (by rw [List.length_append, List.length_append, g.keyLen ix hi v v', g.pkLen k k']) f1.2 f2.2 h
  exact g.pkInj _ _ hk hk' (List.append_inj this (g.keyLen ix hi v v')).2

variable [DecidableEq K] {r : AMap Bytes C} {m : AMap K V}

/-- A record is read back. -/
theorem Table.Rep.load (g : t.Good dom) (h : t.Rep dom r m) {k : K} (hk : dom k) (hf : fits (t.ns :: t.pk k) = true) :
    t.load r k = m.get? k := by
  unfold Table.load
  rw [t.at_eq g]
  cases hc : r.get? (comp t.ns ++ join (t.pk k)) with
  | none =>
    cases hm : m.get? k with
    | none => rfl
    | some v => rw [(h.prim _ _).mpr ⟨k, v, hm, rfl, rfl⟩] at hc; cases hc
  | some c =>
    obtain ⟨k', v, h1, h2, h3⟩ := (h.prim _ _).mp hc
    have h4 := h.fit _ _ h1
    have := pk_join_inj g hk h4.1 hf (okay_prim h4.2) h2
    subst this
    rw [h1, Option.bind_some, h3, g.dec]

omit [DecidableEq K] in
/-- The store after the index entries of a record have been removed. -/
theorem clear_prim (g : t.Good dom) {k : K} {o : Option V} (b : Bytes) :
    (t.clear k o r).get? (comp t.ns ++ b) = r.get? (comp t.ns ++ b) := by
  cases o with
  | none => rfl
  | some v =>
    show (t.delIdx k v r).get? _ = _
    rw [get?_delIdx, if_neg]
    rintro ⟨i, hi, e⟩; exact t.idxAt_ne g hi e

theorem clear_idx (g : t.Good dom) (h : t.Rep dom r m) {k : K} (hk : dom k) {ix : Index V} (hx : ix ∈ t.idx) (b : Bytes) (c : C) :
    (t.clear k (m.get? k) r).get? (comp ix.ns ++ b) = some c ↔
      ∃ k' v, m.get? k' = some v ∧ k' ≠ k ∧ b = join (ix.key v ++ t.pk k') ∧ c = t.len (join (t.pk k')).length := by
  cases hm : m.get? k with
  | none =>
    show r.get? _ = _ ↔ _
    rw [h.idx ix hx]
    constructor
    · rintro ⟨k', v, h1, h2⟩
      refine ⟨k', v, h1, ?_, h2⟩
      rintro rfl; rw [hm] at h1; cases h1
    · rintro ⟨k', v, h1, _, h2⟩; exact ⟨k', v, h1, h2⟩
  | some o =>
    show (t.delIdx k o r).get? _ = _ ↔ _
    rw [get?_delIdx]
    by_cases hb : b = join (ix.key o ++ t.pk k)
    · rw [if_pos ((exists_idxAt g hx).mpr hb)]
      constructor
      · intro e; cases e
      · rintro ⟨k', v, h1, h2, h3, _⟩
        have f1 := h.fit _ _ h1
        exact absurd (idx_join_inj g hx f1.1 hk f1.2 (h.fit _ _ hm).2 (h3.symm.trans hb)) h2
    · rw [if_neg (fun e => hb ((exists_idxAt g hx).mp e)), h.idx ix hx]
      constructor
      · rintro ⟨k', v, h1, h2⟩
        refine ⟨k', v, h1, ?_, h2⟩
        rintro rfl
        rw [hm] at h1; cases h1
        exact hb h2.1
      · rintro ⟨k', v, h1, _, h2⟩; exact ⟨k', v, h1, h2⟩

/-- `save` keeps records and index entries together. -/
theorem Table.Rep.save (g : t.Good dom) (h : t.Rep dom r m) {k : K} {v : V} {r' : AMap Bytes C} (hk : dom k)
    (hs : t.save r k v = some r') : t.Rep dom r' (m.insert k v) := by
  unfold Table.save at hs
  by_cases ok : t.okay k v = true
  · rw [if_pos ok] at hs
    cases hs
    rw [h.load g hk (okay_prim ok)]
    refine ⟨fun b c => ?_, fun ix hx b c => ?_, fun k' v' => ?_⟩
    · have hp : (t.putIdx k v (t.clear k (m.get? k) r)).get? (comp t.ns ++ b) = r.get? (comp t.ns ++ b) := by
        rw [get?_putIdx, if_neg (by rintro ⟨i, hi, e⟩; exact t.idxAt_ne g hi e), clear_prim g]
      rw [AMap.get?_insert, t.at_eq g, hp]
      by_cases hb : join (t.pk k) = b
      · rw [if_pos (by rw [hb])]
        constructor
        · intro e; cases e; exact ⟨k, v, by simp, hb.symm, rfl⟩
        · rintro ⟨k', v', h1, h2, h3⟩
          rw [AMap.get?_insert] at h1
          by_cases hkk : k = k'
          · rw [if_pos hkk] at h1; cases h1; rw [h3]
          · rw [if_neg hkk] at h1
            have f1 := h.fit _ _ h1
            exact absurd (pk_join_inj g hk f1.1 (okay_prim ok) (okay_prim f1.2) (hb.trans h2)) hkk
      · rw [if_neg (fun e => hb (List.append_cancel_left e)), h.prim]
        constructor
        · rintro ⟨k', v', h1, h2, h3⟩
          refine ⟨k', v', ?_, h2, h3⟩
          rw [AMap.get?_insert, if_neg, h1]
          rintro rfl; exact hb h2.symm
        · rintro ⟨k', v', h1, h2, h3⟩
          rw [AMap.get?_insert] at h1
          by_cases hkk : k = k'
          · subst hkk; exact absurd h2.symm hb
          · rw [if_neg hkk] at h1; exact ⟨k', v', h1, h2, h3⟩
    · rw [AMap.get?_insert, t.at_eq g, if_neg (fun e => g.nsNe hx (comp_inj g.nsShort (g.ixShort hx) e).1.symm), get?_putIdx]
      by_cases hb : b = join (ix.key v ++ t.pk k)
      · rw [if_pos ((exists_idxAt g hx).mpr hb)]
        constructor
        · intro e; cases e; exact ⟨k, v, by simp, hb, rfl⟩
        · rintro ⟨k', v', h1, h2, h3⟩
          rw [AMap.get?_insert] at h1
          by_cases hkk : k = k'
          · subst hkk; rw [h3]
          · rw [if_neg hkk] at h1
            have f1 := h.fit _ _ h1
            exact absurd (idx_join_inj g hx hk f1.1 ok f1.2 (hb.symm.trans h2)) hkk
      · rw [if_neg (fun e => hb ((exists_idxAt g hx).mp e)), clear_idx g h hk hx]
        constructor
        · rintro ⟨k', v', h1, h2, h3⟩
          exact ⟨k', v', by rw [AMap.get?_insert, if_neg (fun e => h2 e.symm), h1], h3⟩
        · rintro ⟨k', v', h1, h2, h3⟩
          rw [AMap.get?_insert] at h1
          by_cases hkk : k = k'
          · rw [if_pos hkk] at h1; cases h1; subst hkk; exact absurd h2 hb
          · rw [if_neg hkk] at h1; exact ⟨k', v', h1, fun e => hkk e.symm, h2, h3⟩
    · rw [AMap.get?_insert]
      by_cases hkk : k = k'
      · rw [if_pos hkk]; intro e; cases e; subst hkk; exact ⟨hk, ok⟩
      · rw [if_neg hkk]; exact h.fit k' v'
  · rw [if_neg ok] at hs; cases hs

/-- `remove` leaves no index entry behind. -/
theorem Table.Rep.remove (g : t.Good dom) (h : t.Rep dom r m) {k : K} {r' : AMap Bytes C} (hk : dom k)
    (hs : t.remove r k = some r') : t.Rep dom r' (m.erase k) := by
  unfold Table.remove at hs
  by_cases ok : fits (t.ns :: t.pk k) = true
  · rw [if_pos ok] at hs
    cases hs
    rw [h.load g hk ok]
    refine ⟨fun b c => ?_, fun ix hx b c => ?_, fun k' v' => ?_⟩
    · rw [AMap.get?_erase, t.at_eq g, clear_prim g]
      by_cases hb : join (t.pk k) = b
      · rw [if_pos (by rw [hb])]
        constructor
        · intro e; cases e
        · rintro ⟨k', v', h1, h2, h3⟩
          rw [AMap.get?_erase] at h1
          by_cases hkk : k = k'
          · rw [if_pos hkk] at h1; cases h1
          · rw [if_neg hkk] at h1
            have f1 := h.fit _ _ h1
            exact absurd (pk_join_inj g hk f1.1 ok (okay_prim f1.2) (hb.trans h2)) hkk
      · rw [if_neg (fun e => hb (List.append_cancel_left e)), h.prim]
        constructor
        · rintro ⟨k', v', h1, h2, h3⟩
          refine ⟨k', v', ?_, h2, h3⟩
          rw [AMap.get?_erase, if_neg, h1]
          rintro rfl; exact hb h2.symm
        · rintro ⟨k', v', h1, h2, h3⟩
          rw [AMap.get?_erase] at h1
          by_cases hkk : k = k'
          · rw [if_pos hkk] at h1; cases h1
          · rw [if_neg hkk] at h1; exact ⟨k', v', h1, h2, h3⟩
    · rw [AMap.get?_erase, t.at_eq g, if_neg (fun e => g.nsNe hx (comp_inj g.nsShort (g.ixShort hx) e).1.symm),
        clear_idx g h hk hx]
      constructor
      · rintro ⟨k', v', h1, h2, h3⟩
        exact ⟨k', v', by rw [AMap.get?_erase, if_neg (fun e => h2 e.symm), h1], h3⟩
      · rintro ⟨k', v', h1, h2, h3⟩
        rw [AMap.get?_erase] at h1
        by_cases hkk : k = k'
        · rw [if_pos hkk] at h1; cases h1
        · rw [if_neg hkk] at h1; exact ⟨k', v', h1, fun e => hkk e.symm, h2, h3⟩
    · rw [AMap.get?_erase]
      by_cases hkk : k = k'
      · rw [if_pos hkk]; intro e; cases e
      · rw [if_neg hkk]; exact h.fit k' v'
  · rw [if_neg ok] at hs; cases hs

/-! ### Other records -/

/-- Namespaces a table writes to. -/
def Table.spaces (t : Table K V C) : List Bytes := t.ns :: t.idx.map Index.ns

omit [DecidableEq K] in
theorem clear_frame (g : t.Good dom) {k : K} {o : Option V} {b : Bytes} (hb : ∀ n ∈ t.spaces, ∀ u, b ≠ comp n ++ u) :
    (t.clear k o r).get? b = r.get? b := by
  cases o with
  | none => rfl
  | some v =>
    show (t.delIdx k v r).get? _ = _
    rw [get?_delIdx, if_neg]
    rintro ⟨i, hi, e⟩
    rw [t.idxAt_eq g] at e
    exact hb i.ns (List.mem_cons_of_mem _ (List.mem_map_of_mem hi)) _ e.symm

omit [DecidableEq K] in
/-- `save` writes below the namespaces of its table only. -/
theorem save_frame (g : t.Good dom) {k : K} {v : V} {r' : AMap Bytes C} (hs : t.save r k v = some r') {b : Bytes}
    (hb : ∀ n ∈ t.spaces, ∀ u, b ≠ comp n ++ u) : r'.get? b = r.get? b := by
  unfold Table.save at hs
  split at hs
  · cases hs
    rw [AMap.get?_insert, t.at_eq g, if_neg (fun e => hb t.ns (by simp [Table.spaces]) _ e.symm), get?_putIdx, if_neg, clear_frame g hb]
    rintro ⟨i, hi, e⟩
    rw [t.idxAt_eq g] at e
    exact hb i.ns (List.mem_cons_of_mem _ (List.mem_map_of_mem hi)) _ e.symm
  · cases hs

omit [DecidableEq K] in
/-- `remove` writes below the namespaces of its table only. -/
theorem remove_frame (g : t.Good dom) {k : K} {r' : AMap Bytes C} (hs : t.remove r k = some r') {b : Bytes}
    (hb : ∀ n ∈ t.spaces, ∀ u, b ≠ comp n ++ u) : r'.get? b = r.get? b := by
  unfold Table.remove at hs
  split at hs
  · cases hs
    rw [AMap.get?_erase, t.at_eq g, if_neg (fun e => hb t.ns (by simp [Table.spaces]) _ e.symm), clear_frame g hb]
  · cases hs

/-- A store that agrees on the namespaces of a table represents the same records. -/
theorem Table.Rep.congr (h : t.Rep dom r m) {r' : AMap Bytes C}
    (he : ∀ n ∈ t.spaces, ∀ u, r'.get? (comp n ++ u) = r.get? (comp n ++ u)) : t.Rep dom r' m where
  prim b c := by rw [he t.ns (by simp [Table.spaces])]; exact h.prim b c
  idx ix hx b c := by rw [he ix.ns (List.mem_cons_of_mem _ (List.mem_map_of_mem hx))]; exact h.idx ix hx b c
  fit := h.fit

/-- Keys outside a list of namespaces. -/
def Outside (ns : List Bytes) (b : Bytes) : Prop := ∀ n ∈ ns, ∀ u, b ≠ comp n ++ u

omit [DecidableEq K] in
/-- A key of a single item does not start with a length below 256. -/
theorem outside_item {ns : List Bytes} {b : Bytes} (hs : ∀ n ∈ ns, n.length < 256) (hb : ∀ u, b ≠ 0 :: u) : Outside ns b := by
  intro n hn u e
  apply hb ((be 1 n.length ++ n) ++ u)
  rw [e]
  have h0 : n.length / 256 ^ 1 = 0 := Nat.div_eq_of_lt (by simpa using hs n hn)
  unfold comp
  rw [be, h0]
  rfl

omit [DecidableEq K] in
theorem outside_space {ns : List Bytes} (hs : ∀ n ∈ ns, n.length < 65536) {n : Bytes} (hn : n.length < 65536) (hd : n ∉ ns) (u : Bytes) :
    Outside ns (comp n ++ u) := by
  intro n' hn' u' e
  have := (comp_inj hn (hs n' hn') e).1
  subst this; exact hd hn'

/-- Records of a table whose namespaces were not written. -/
theorem Table.Rep.other (g : t.Good dom) (h : t.Rep dom r m) {ns : List Bytes} (hs : ∀ n ∈ ns, n.length < 65536)
    (hd : ∀ n ∈ t.spaces, n ∉ ns) {r' : AMap Bytes C} (hf : ∀ b, Outside ns b → r'.get? b = r.get? b) : t.Rep dom r' m :=
  h.congr (fun n hn u => hf _ (outside_space hs (g.short n hn) (hd n hn) u))

/-- Writing a single item. -/
theorem Table.Rep.item (h : t.Rep dom r m) (hs : ∀ n ∈ t.spaces, n.length < 256) {b : Bytes} (hb : ∀ u, b ≠ 0 :: u)
    (c : C) : t.Rep dom (r.insert b c) m := by
  refine h.congr (fun n hn u => ?_)
  rw [AMap.get?_insert, if_neg (outside_item hs hb n hn u)]

/-- An empty store. -/
theorem Table.Rep.empty : t.Rep dom .empty .empty where
  prim b c := by simp
  idx ix hx b c := by simp
  fit k v h := by simp at h

omit [DecidableEq K] in
/-- A record is saved unless a component is too long. -/
theorem save_some {k : K} {v : V} (h : t.okay k v = true) : ∃ r', t.save r k v = some r' :=
  ⟨_, if_pos h⟩

omit [DecidableEq K] in
theorem remove_some {k : K} (h : fits (t.ns :: t.pk k) = true) : ∃ r', t.remove r k = some r' :=
  ⟨_, if_pos h⟩

/-- A property of all records survives `insert` and `erase`. -/
theorem insert_mem {P : K → V → Prop} (h : ∀ k a, m.get? k = some a → P k a) {k : K} {v : V} (hv : P k v) :
    ∀ k' a, (m.insert k v).get? k' = some a → P k' a := by
  intro k' a ha
  rw [AMap.get?_insert] at ha
  split at ha
  · rename_i e; subst e; cases ha; exact hv
  · exact h k' a ha

theorem erase_mem {P : K → V → Prop} (h : ∀ k a, m.get? k = some a → P k a) {k : K} :
    ∀ k' a, (m.erase k).get? k' = some a → P k' a := by
  intro k' a ha
  rw [AMap.get?_erase] at ha
  split at ha
  · cases ha
  · exact h k' a ha

end

theorem ne_zero {b : Bytes} (h : b.head? ≠ some 0) (u : Bytes) : b ≠ 0 :: u := by
  intro e; rw [e] at h; exact h rfl

end Verif.Kv

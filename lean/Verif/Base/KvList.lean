/-
Listing an index of the key-value store of Kv.lean gives the scan of the typed map. Helper file.
-/
import Verif.Base.KvBounds

namespace Verif

/-- Key of a bound. -/
def QBound.key {A : Type} : QBound A → A
  | .incl k => k
  | .excl k => k

namespace Kv

theorem mapM_eq {A B D : Type} {f : A → Option B} {g : D → B} : ∀ {l : List A} {l' : List D},
    l.map f = l'.map (fun e => some (g e)) → l.mapM f = some (l'.map g)
  | [], [], _ => rfl
  | [], _ :: _, h => by simp at h
  | _ :: _, [], h => by simp at h
  | a :: l, b :: l', h => by
    rw [List.map_cons, List.map_cons, List.cons.injEq] at h
    rw [List.mapM_cons, h.1, mapM_eq h.2]
    rfl

section
variable {K V C J : Type} [DecidableEq K] {t : Table K V C} {dom : K → Prop} {r : AMap Bytes C} {m : AMap K V}

/-- What the entries of an index below a prefix must be: `sel` says that the record is below the prefix, `key` is the rest of
its key. -/
structure Covers (t : Table K V C) (ix : Index V) (pre : List Bytes) (m : AMap K V) (D : J → Prop) (le : J → J → Bool)
    (enc : J → Bytes) (sel : V → Bool) (key : K → V → J) : Prop where
  mem : ix ∈ t.idx
  short : ∀ a ∈ pre, a.length < 65536
  room : ∀ a ∈ pre.getLast?, a.length < 65535
  selIff : ∀ k v, m.get? k = some v → pre.length ≤ (ix.key v).length ∧ (sel v = true ↔ (ix.key v).take pre.length = pre)
  encEq : ∀ k v, m.get? k = some v → sel v = true → D (key k v) ∧ enc (key k v) = join ((ix.key v).drop pre.length ++ t.pk k)
  ord : ∀ j j', D j → D j' → bLe (enc j) (enc j') = le j j'

theorem ltK_enc {le : J → J → Bool} {enc : J → Bytes} {D : J → Prop} (h : ∀ j j', D j → D j' → bLe (enc j) (enc j') = le j j')
    {a b : J} (ha : D a) (hb : D b) : ltK bLe (enc a) (enc b) = ltK le a b := by
  unfold ltK; rw [h _ _ ha hb, h _ _ hb ha]

theorem okMin_enc {le : J → J → Bool} {enc : J → Bytes} {D : J → Prop} (h : ∀ j j', D j → D j' → bLe (enc j) (enc j') = le j j')
    {mn : Option (QBound J)} (hm : ∀ b ∈ mn, D b.key) {a : J} (ha : D a) :
    okMin bLe (mn.map (QBound.map enc)) (enc a) = okMin le mn a := by
  cases mn with
  | none => rfl
  | some b =>
    have hb := hm b (by simp)
    cases b with
    | incl k => exact h _ _ hb ha
    | excl k =>
      have hk : D k := hb
      simp only [Option.map_some, QBound.map, okMin, h _ _ hk ha, h _ _ ha hk]

theorem okMax_enc {le : J → J → Bool} {enc : J → Bytes} {D : J → Prop} (h : ∀ j j', D j → D j' → bLe (enc j) (enc j') = le j j')
    {mx : Option (QBound J)} (hm : ∀ b ∈ mx, D b.key) {a : J} (ha : D a) :
    okMax bLe (mx.map (QBound.map enc)) (enc a) = okMax le mx a := by
  cases mx with
  | none => rfl
  | some b =>
    have hb := hm b (by simp)
    cases b with
    | incl k => exact h _ _ ha hb
    | excl k =>
      have hk : D k := hb
      simp only [Option.map_some, QBound.map, okMax, h _ _ hk ha, h _ _ ha hk]

/-- The cells below the prefix of an index. -/
theorem below_index (g : t.Good dom) (h : t.Rep dom r m) {ix : Index V} {pre : List Bytes} {D : J → Prop} {le : J → J → Bool}
    {enc : J → Bytes} {sel : V → Bool} {key : K → V → J} (cv : Covers t ix pre m D le enc sel key) (b : Bytes) (c : C) :
    (b, c) ∈ below r (pfx (ix.ns :: pre)) ↔
      ∃ k v, m.get? k = some v ∧ sel v = true ∧ b = enc (key k v) ∧ c = t.len (join (t.pk k)).length := by
  have hp : pfx (ix.ns :: pre) ++ b = comp ix.ns ++ (pfx pre ++ b) := by simp [pfx]
  rw [mem_below, hp, h.idx ix cv.mem]
  have hsplit : ∀ k v, join (ix.key v ++ t.pk k) =
      pfx ((ix.key v).take pre.length) ++ join ((ix.key v).drop pre.length ++ t.pk k) := by
    intro k v
    rw [← join_append, ← List.append_assoc, List.take_append_drop]
    intro e; exact g.ne k (List.append_eq_nil_iff.mp e).2
  constructor
  · rintro ⟨k, v, h1, h2, h3⟩
    obtain ⟨hlen, hs⟩ := cv.selIff k v h1
    have hf := okay_idx (h.fit k v h1).2 cv.mem
    rw [fits_append (g.ne k)] at hf
    rw [hsplit] at h2
    obtain ⟨e1, e2⟩ := pfx_inj (p := pre) (q := (ix.key v).take pre.length) (by rw [List.length_take]; omega) cv.short
      (fun a ha => hf.1 a (List.mem_cons_of_mem _ (List.mem_of_mem_take ha))) h2
    have hsel := hs.mpr e1.symm
    exact ⟨k, v, h1, hsel, by rw [(cv.encEq k v h1 hsel).2, e2], h3⟩
  · rintro ⟨k, v, h1, h2, h3, h4⟩
    refine ⟨k, v, h1, ?_, h4⟩
    rw [hsplit, ((cv.selIff k v h1).2).mp h2, h3, (cv.encEq k v h1 h2).2]

/-- The record an index entry leads to. -/
theorem follow_eq (g : t.Good dom) (h : t.Rep dom r m) {ix : Index V} {pre : List Bytes} {D : J → Prop} {le : J → J → Bool}
    {enc : J → Bytes} {sel : V → Bool} {key : K → V → J} (cv : Covers t ix pre m D le enc sel key) {k : K} {v : V}
    (hm : m.get? k = some v) (hs : sel v = true) :
    t.follow ix r (pfx (ix.ns :: pre)) (enc (key k v), t.len (join (t.pk k)).length) = some v := by
  unfold Table.follow
  simp only [g.unlen, Option.bind_some]
  have hkey : pfx (ix.ns :: pre) ++ enc (key k v) = pfx (ix.ns :: pre ++ (ix.key v).drop pre.length) ++ join (t.pk k) := by
    rw [(cv.encEq k v hm hs).2, join_append (g.ne k)]
    simp [pfx]
  rw [hkey, List.length_append, Nat.add_sub_cancel, List.drop_left, g.pkNs ix cv.mem]
  have : pfx [t.ns] = comp t.ns := by simp [pfx]
  rw [this, (h.prim _ _).mpr ⟨k, v, hm, rfl, rfl⟩, Option.bind_some, g.dec]

theorem pfx_one (n : Bytes) : pfx [n] = comp n := by simp [pfx]

/-- Iterating over a namespace meets the cells of the namespace. -/
theorem space_range {n : Bytes} (h1 : n ≠ [] ∧ n.getLast? ≠ some 255) (r : AMap Bytes C) (desc : Bool) (mn mx : Option (QBound Bytes)) :
    range r (pfx [n]) desc mn mx = within r (pfx [n]) desc mn mx := by
  rw [pfx_one]
  have hc : comp n ≠ [] := by unfold comp; simp [h1.1]
  refine range_plain r hc ?_ desc mn mx
  unfold comp
  rw [List.getLast?_append]
  cases h : n.getLast? with
  | none => exact absurd (List.getLast?_eq_none_iff.mp h) h1.1
  | some x => rw [h] at h1; exact h1.2

/-- Iterating over an index meets the entries below the prefix. -/
theorem index_range (g : t.Good dom) (h : t.Rep dom r m) {ix : Index V} {pre : List Bytes} {D : J → Prop} {le : J → J → Bool}
    {enc : J → Bytes} {sel : V → Bool} {key : K → V → J} (cv : Covers t ix pre m D le enc sel key) (desc : Bool)
    (mn mx : Option (QBound Bytes)) :
    range r (pfx (ix.ns :: pre)) desc mn mx = within r (pfx (ix.ns :: pre)) desc mn mx := by
  rcases List.eq_nil_or_concat pre with rfl | ⟨q, a, hpre⟩
  · exact space_range (g.last _ (List.mem_cons_of_mem _ (List.mem_map_of_mem cv.mem))) r desc mn mx
  rw [List.concat_eq_append] at hpre
  have hA : pfx (ix.ns :: pre) = pfx (ix.ns :: q) ++ comp a := by rw [hpre]; simp [pfx]
  rw [hA]
  refine range_within r (incr_comp (cv.room a (by simp [hpre]))) ?_ desc mn mx
  rintro k c hk ⟨u, hu⟩ hb
  subst hu
  have e : pfx (ix.ns :: q) ++ u = comp ix.ns ++ (pfx q ++ u) := by simp [pfx]
  rw [e] at hk
  obtain ⟨k', v, h1, h2, _⟩ := (h.idx ix cv.mem _ _).mp hk
  have hlen := (cv.selIff k' v h1).1
  have hf := okay_idx (h.fit k' v h1).2 cv.mem
  rw [fits_append (g.ne k')] at hf
  have hl : q.length < (ix.key v).length := by rw [hpre] at hlen; simp at hlen; omega
  have hsp : ix.key v ++ t.pk k' = (ix.key v).take q.length ++ ((ix.key v)[q.length] :: ((ix.key v).drop (q.length + 1) ++ t.pk k')) := by
    rw [← List.cons_append, ← List.drop_eq_getElem_cons hl, ← List.append_assoc, List.take_append_drop]
  have hne : (ix.key v).drop (q.length + 1) ++ t.pk k' ≠ [] := by intro e; exact g.ne k' (List.append_eq_nil_iff.mp e).2
  rw [hsp, join_append (by simp), join_cons _ hne] at h2
  obtain ⟨_, e2⟩ := pfx_inj (p := q) (q := (ix.key v).take q.length) (by rw [List.length_take]; omega)
    (fun x hx => cv.short x (by rw [hpre]; simp [hx]))
    (fun x hx => hf.1 x (List.mem_cons_of_mem _ (List.mem_of_mem_take hx))) h2
  subst e2
  rw [bLe_append] at hb
  rw [List.length_append, List.length_append]
  have := comp_le (cv.short a (by rw [hpre]; simp)) (hf.1 _ (List.mem_cons_of_mem _ (List.getElem_mem hl))) hb
  omega

/-- The entries of an index within bounds, and the records they lead to. -/
theorem range_eq (g : t.Good dom) (h : t.Rep dom r m) {ix : Index V} {pre : List Bytes} {D : J → Prop} {le : J → J → Bool}
    (hl : Lin le) {enc : J → Bytes} {sel : V → Bool} {key : K → V → J} (cv : Covers t ix pre m D le enc sel key) {desc : Bool}
    {mn mx : Option (QBound J)} (hmn : ∀ b ∈ mn, D b.key) (hmx : ∀ b ∈ mx, D b.key) :
    (range r (pfx (ix.ns :: pre)) desc (mn.map (QBound.map enc)) (mx.map (QBound.map enc))).map
        (fun e => (e.1, t.follow ix r (pfx (ix.ns :: pre)) e)) =
      (scan le (index m sel key) desc mn mx).map (fun e => (enc e.1, some e.2)) := by
  rw [index_range g h cv]
  have hkinj : ∀ k v k' v', m.get? k = some v → sel v = true → m.get? k' = some v' → sel v' = true →
      enc (key k v) = enc (key k' v') → k = k' := by
    intro k v k' v' h1 s1 h2 s2 he
    have c1 := (below_index g h cv (enc (key k v)) _).mpr ⟨k, v, h1, s1, rfl, rfl⟩
    have c2 := (below_index g h cv (enc (key k v)) _).mpr ⟨k', v', h2, s2, he, rfl⟩
    obtain ⟨hl1, e1⟩ := cv.selIff k v h1
    have f1 := h.fit k v h1
    have f2 := h.fit k' v' h2
    refine idx_join_inj g cv.mem f1.1 f2.1 f1.2 f2.2 ?_
    have hsplit : ∀ k v, m.get? k = some v → sel v = true → join (ix.key v ++ t.pk k) = pfx pre ++ enc (key k v) := by
      intro k v hm hs
      have : ix.key v ++ t.pk k = pre ++ ((ix.key v).drop pre.length ++ t.pk k) := by
        rw [← List.append_assoc]
        congr 1
        conv => lhs; rw [← List.take_append_drop pre.length (ix.key v), ((cv.selIff k v hm).2).mp hs]
      rw [this, join_append, (cv.encEq k v hm hs).2]
      intro e; exact g.ne k (List.append_eq_nil_iff.mp e).2
    rw [hsplit k v h1 s1, hsplit k' v' h2 s2, he]
  have hnd : ((index m sel key).map Prod.fst).Nodup := by
    refine index_nodup ?_
    intro k v k' v' h1 s1 h2 s2 e
    exact hkinj k v k' v' h1 s1 h2 s2 (by rw [e])
  have hD : ∀ e ∈ index m sel key, D e.1 := by
    rintro ⟨j, v⟩ he
    obtain ⟨k, h1, h2, h3⟩ := mem_index.mp he
    rw [← h3]; exact (cv.encEq k v h1 h2).1
  refine eq_of_sorted (lt := fun a b : Bytes × Option V => later bLe desc a.1 b.1 = true)
    (fun a => by rw [later_irrefl]; simp) (fun a b h1 => by rw [later_asymm bytesLin h1]; simp) ?_ ?_ ?_
  · rw [List.pairwise_map]
    exact scan_later bytesLin (below_nodup r _) desc _ _
  · rw [List.pairwise_map]
    refine List.Pairwise.imp_of_mem ?_ (scan_later hl hnd desc mn mx)
    intro a b ha hb hab
    have da := hD a (mem_scan.mp ha).1
    have db := hD b (mem_scan.mp hb).1
    unfold later at hab ⊢
    rw [ltK_enc cv.ord da db, ltK_enc cv.ord db da]
    exact hab
  · intro x
    rw [List.mem_map, List.mem_map]
    constructor
    · rintro ⟨⟨b, c⟩, h1, rfl⟩
      unfold within at h1
      rw [mem_scan] at h1
      obtain ⟨h2, h3, h4⟩ := h1
      obtain ⟨k, v, h5, h6, h7, h8⟩ := (below_index g h cv b c).mp h2
      have hd := (cv.encEq k v h5 h6).1
      refine ⟨(key k v, v), ?_, ?_⟩
      · rw [mem_scan]
        simp only at h3 h4
        rw [h7, okMin_enc cv.ord hmn hd] at h3
        rw [h7, okMax_enc cv.ord hmx hd] at h4
        exact ⟨mem_index.mpr ⟨k, h5, h6, rfl⟩, h3, h4⟩
      · rw [h7, h8, follow_eq g h cv h5 h6]
    · rintro ⟨⟨j, v⟩, h1, rfl⟩
      rw [mem_scan] at h1
      obtain ⟨h2, h3, h4⟩ := h1
      obtain ⟨k, h5, h6, h7⟩ := mem_index.mp h2
      simp only at h3 h4
      subst h7
      have hd := (cv.encEq k v h5 h6).1
      refine ⟨(enc (key k v), t.len (join (t.pk k)).length), ?_, ?_⟩
      · unfold within
        rw [mem_scan]
        exact ⟨(below_index g h cv _ _).mpr ⟨k, v, h5, h6, rfl, rfl⟩, by
          simp only; rw [okMin_enc cv.ord hmn hd]; exact h3, by simp only; rw [okMax_enc cv.ord hmx hd]; exact h4⟩
      · rw [follow_eq g h cv h5 h6]

/-- Listing an index of the store gives the scan of the typed map. -/
theorem list_eq (g : t.Good dom) (h : t.Rep dom r m) {ix : Index V} {pre : List Bytes} {D : J → Prop} {le : J → J → Bool}
    (hl : Lin le) {enc : J → Bytes} {sel : V → Bool} {key : K → V → J} (cv : Covers t ix pre m D le enc sel key) {desc : Bool}
    {mn mx : Option (QBound J)} (hmn : ∀ b ∈ mn, D b.key) (hmx : ∀ b ∈ mx, D b.key) (n : Nat) :
    t.list ix r pre desc (mn.map (QBound.map enc)) (mx.map (QBound.map enc)) n =
      some (((scan le (index m sel key) desc mn mx).take n).map Prod.snd) := by
  have hmap := range_eq g h hl cv (desc := desc) hmn hmx
  unfold Table.list
  refine mapM_eq ?_
  have h2 := congrArg (fun l => (l.take n).map Prod.snd) hmap
  simp only [← List.map_take, List.map_map] at h2
  exact h2

/-- Listing with a filter. -/
theorem listBy_eq (g : t.Good dom) (h : t.Rep dom r m) {ix : Index V} {pre : List Bytes} {D : J → Prop} {le : J → J → Bool}
    (hl : Lin le) {enc : J → Bytes} {sel : V → Bool} {key : K → V → J} (cv : Covers t ix pre m D le enc sel key) {desc : Bool}
    {mn mx : Option (QBound J)} (hmn : ∀ b ∈ mn, D b.key) (hmx : ∀ b ∈ mx, D b.key) (keep : V → Bool) (n : Nat) :
    t.listBy ix r pre desc (mn.map (QBound.map enc)) (mx.map (QBound.map enc)) keep n =
      some ((((scan le (index m sel key) desc mn mx).filter (fun e => keep e.2)).take n).map Prod.snd) := by
  have h2 := congrArg (fun l => l.map Prod.snd) (range_eq g h hl cv (desc := desc) hmn hmx)
  simp only [List.map_map] at h2
  have h3 : (range r (pfx (ix.ns :: pre)) desc (mn.map (QBound.map enc)) (mx.map (QBound.map enc))).map
      (t.follow ix r (pfx (ix.ns :: pre))) = (scan le (index m sel key) desc mn mx).map (fun e => some e.2) := h2
  unfold Table.listBy
  rw [h3, List.filter_map]
  have e : ((fun o : Option V => o.all keep) ∘ fun e : J × V => some e.2) = fun e => keep e.2 := rfl
  rw [e, ← List.map_take]
  refine mapM_eq ?_
  rw [List.map_map]; rfl

/-- The records of a map within bounds. -/
theorem records_eq (g : t.Good dom) (h : t.Rep dom r m) {D : J → Prop} {le : J → J → Bool} (hl : Lin le) {enc : J → Bytes} {key : K → J}
    (henc : ∀ k v, m.get? k = some v → D (key k) ∧ enc (key k) = join (t.pk k))
    (ord : ∀ j j', D j → D j' → bLe (enc j) (enc j') = le j j') {desc : Bool}
    {mn mx : Option (QBound J)} (hmn : ∀ b ∈ mn, D b.key) (hmx : ∀ b ∈ mx, D b.key) :
    (range r (pfx [t.ns]) desc (mn.map (QBound.map enc)) (mx.map (QBound.map enc))).map
        (fun e => (e.1, (t.dec e.2).map (fun v => (e.1, v)))) =
      (scan le (index m (fun _ => true) (fun k _ => key k)) desc mn mx).map (fun e => (enc e.1, some (enc e.1, e.2))) := by
  rw [space_range (g.last _ (by simp))]
  have hb : ∀ b c, (b, c) ∈ below r (pfx [t.ns]) ↔ ∃ k v, m.get? k = some v ∧ b = enc (key k) ∧ c = t.enc v := by
    intro b c
    have : pfx [t.ns] = comp t.ns := by simp [pfx]
    rw [mem_below, this, h.prim]
    constructor
    · rintro ⟨k, v, h1, h2, h3⟩; exact ⟨k, v, h1, h2.trans (henc k v h1).2.symm, h3⟩
    · rintro ⟨k, v, h1, h2, h3⟩; exact ⟨k, v, h1, h2.trans (henc k v h1).2, h3⟩
  have hnd : ((index m (fun _ => true) (fun k _ => key k)).map Prod.fst).Nodup := by
    refine index_nodup ?_
    intro k v k' v' h1 _ h2 _ e
    have f1 := h.fit _ _ h1
    have f2 := h.fit _ _ h2
    refine pk_join_inj g f1.1 f2.1 (okay_prim f1.2) (okay_prim f2.2) ?_
    rw [← (henc k v h1).2, ← (henc k' v' h2).2]
    exact congrArg enc e
  have hD : ∀ e ∈ index m (fun _ => true) (fun k _ => key k), D e.1 := by
    rintro ⟨j, v⟩ he
    obtain ⟨k, h1, h2, h3⟩ := mem_index.mp he
    rw [← h3]; exact (henc k v h1).1
  refine eq_of_sorted (lt := fun a b : Bytes × Option (Bytes × V) => later bLe desc a.1 b.1 = true)
    (fun a => by rw [later_irrefl]; simp) (fun a b h1 => by rw [later_asymm bytesLin h1]; simp) ?_ ?_ ?_
  · rw [List.pairwise_map]
    exact scan_later bytesLin (below_nodup r _) desc _ _
  · rw [List.pairwise_map]
    refine List.Pairwise.imp_of_mem ?_ (scan_later hl hnd desc mn mx)
    intro a b ha hb hab
    have da := hD a (mem_scan.mp ha).1
    have db := hD b (mem_scan.mp hb).1
    unfold later at hab ⊢
    rw [ltK_enc ord da db, ltK_enc ord db da]
    exact hab
  · intro x
    rw [List.mem_map, List.mem_map]
    constructor
    · rintro ⟨⟨b, c⟩, h1, rfl⟩
      unfold within at h1
      rw [mem_scan] at h1
      obtain ⟨h2, h3, h4⟩ := h1
      obtain ⟨k, v, h5, h7, h8⟩ := (hb b c).mp h2
      have hd := (henc k v h5).1
      refine ⟨(key k, v), ?_, ?_⟩
      · rw [mem_scan]
        simp only at h3 h4
        rw [h7, okMin_enc ord hmn hd] at h3
        rw [h7, okMax_enc ord hmx hd] at h4
        exact ⟨mem_index.mpr ⟨k, h5, rfl, rfl⟩, h3, h4⟩
      · rw [h7, h8, g.dec]; rfl
    · rintro ⟨⟨j, v⟩, h1, rfl⟩
      rw [mem_scan] at h1
      obtain ⟨h2, h3, h4⟩ := h1
      obtain ⟨k, h5, h6, h7⟩ := mem_index.mp h2
      simp only at h3 h4
      subst h7
      have hd := (henc k v h5).1
      refine ⟨(enc (key k), t.enc v), ?_, ?_⟩
      · unfold within
        rw [mem_scan]
        exact ⟨(hb _ _).mpr ⟨k, v, h5, rfl, rfl⟩, by
          simp only; rw [okMin_enc ord hmn hd]; exact h3, by simp only; rw [okMax_enc ord hmx hd]; exact h4⟩
      · rw [g.dec]; rfl

/-- Listing the map itself gives the scan of the typed map. -/
theorem entries_eq (g : t.Good dom) (h : t.Rep dom r m) {D : J → Prop} {le : J → J → Bool} (hl : Lin le) {enc : J → Bytes} {key : K → J}
    (henc : ∀ k v, m.get? k = some v → D (key k) ∧ enc (key k) = join (t.pk k))
    (ord : ∀ j j', D j → D j' → bLe (enc j) (enc j') = le j j') {desc : Bool}
    {mn mx : Option (QBound J)} (hmn : ∀ b ∈ mn, D b.key) (hmx : ∀ b ∈ mx, D b.key) (n : Nat) :
    t.entries r desc (mn.map (QBound.map enc)) (mx.map (QBound.map enc)) n =
      some (((scan le (index m (fun _ => true) (fun k _ => key k)) desc mn mx).take n).map (fun e => (enc e.1, e.2))) := by
  have hmap := records_eq g h hl henc ord (desc := desc) hmn hmx
  unfold Table.entries
  refine mapM_eq ?_
  have h2 := congrArg (fun l => (l.take n).map Prod.snd) hmap
  simp only [← List.map_take, List.map_map] at h2
  exact h2

end
end Kv

theorem pkLe_lex (a b : Nat × Bytes) : pkLe a b = lexLe natLe bLe a b := by
  unfold pkLe lexLe natLe
  by_cases h : a.1 = b.1
  · simp [h]
  · simp only [if_neg h]
    simp [h]
    omega

theorem pkLin : Lin pkLe := ⟨pkLe_total, pkLe_trans, fun _ _ => pkLe_antisymm⟩

/-- Scanning does not look at values. -/
theorem insertBy_map {A B : Type} {la : A → A → Bool} {lb : B → B → Bool} {f : A → B} (h : ∀ a a', lb (f a) (f a') = la a a') (x : A) :
    ∀ l : List A, insertBy lb (f x) (l.map f) = (insertBy la x l).map f
  | [] => rfl
  | y :: l => by
    simp only [List.map_cons, insertBy, h]
    split
    · rfl
    · rw [List.map_cons, insertBy_map h x l]

theorem sortBy_map {A B : Type} {la : A → A → Bool} {lb : B → B → Bool} {f : A → B} (h : ∀ a a', lb (f a) (f a') = la a a') :
    ∀ l : List A, sortBy lb (l.map f) = (sortBy la l).map f
  | [] => rfl
  | x :: l => by rw [List.map_cons, sortBy, sortBy_map h l, insertBy_map h, sortBy]

theorem scan_map {K V W : Type} (le : K → K → Bool) (g : K × V → W) (es : List (K × V)) (desc : Bool) (mn mx : Option (QBound K)) :
    scan le (es.map (fun e => (e.1, g e))) desc mn mx = (scan le es desc mn mx).map (fun e => (e.1, g e)) := by
  unfold scan
  rw [sortBy_map (la := fun a b => le a.1 b.1) (fun _ _ => rfl), List.filter_map]
  cases desc
  · rfl
  · exact List.map_reverse.symm

theorem QBound_map_id {b : Option (QBound Bytes)} : b.map (QBound.map (fun k => k)) = b := by
  cases b with
  | none => rfl
  | some b => cases b <;> rfl

/-- Bounds of a query that starts after a key. -/
theorem start_bound {J : Type} (f : J → Bytes) (b : Bool) (start : Option J) :
    (if b then none else start.map (fun k => QBound.excl (f k))) = (if b then none else start.map QBound.excl).map (QBound.map f) ∧
    (if b then start.map (fun k => QBound.excl (f k)) else none) = (if b then start.map QBound.excl else none).map (QBound.map f) := by
  cases b <;> cases start <;> exact ⟨rfl, rfl⟩

theorem scanFrom_eq {J V : Type} (le : J → J → Bool) (es : List (J × V)) (desc : Bool) (start : Option J) :
    scanFrom le es desc start =
      scan le es desc (if desc then none else start.map .excl) (if desc then start.map .excl else none) := by
  unfold scanFrom; cases desc <;> rfl

theorem page_true {J V : Type} (le : J → J → Bool) (es : List (J × V)) (desc : Bool) (start : Option J) (n : Nat) :
    page le es desc (fun _ => true) start n =
      ((scan le es desc (if desc then none else start.map .excl) (if desc then start.map .excl else none)).take n).map Prod.snd := by
  unfold page; rw [scanFrom_eq, List.filter_eq_self.mpr (fun _ _ => rfl)]

theorem bound_mem {J : Type} {D : J → Prop} {start : Option J} (h : ∀ k ∈ start, D k) (b : Bool) :
    (∀ x ∈ (if b then none else start.map QBound.excl), D x.key) ∧ (∀ x ∈ (if b then start.map QBound.excl else none), D x.key) := by
  constructor <;> intro x hx <;> cases b <;> cases start <;> simp at hx <;> subst hx <;> exact h _ rfl

end Verif

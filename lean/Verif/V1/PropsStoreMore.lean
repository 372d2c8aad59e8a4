/-
Marketplace v1: queries and calls on the key-value store (C106).
-/
import Verif.V1.PropsStore

namespace Verif.V1
open Verif Kv Spec

/-! ### C106: queries -/

theorem pageOf_eq {K V J : Type} [DecidableEq K] {t : Table K V Cell} {dom : K → Prop} {r : Raw} {m : AMap K V} (g : t.Good dom)
    (h : t.Rep dom r m) {ix : Index V} {pre : List Bytes} {D : J → Prop} {le : J → J → Bool} (hl : Lin le) {enc : J → Bytes}
    {sel : V → Bool} {key : K → V → J} (cv : Covers t ix pre m D le enc sel key) (desc : Bool) (keep : V → Bool) {start : Option J}
    (hs : ∀ j ∈ start, D j) (n : Nat) :
    pageOf t ix r pre desc keep (start.map enc) n = some (page le (index m sel key) desc keep start n) := by
  unfold pageOf page
  rw [Option.map_map]
  have e := start_bound enc desc start
  have e1 : (QBound.excl ∘ enc) = (fun k => QBound.excl (enc k)) := rfl
  rw [e1, e.1, e.2, listBy_eq g h hl cv (bound_mem hs desc).1 (bound_mem hs desc).2, scanFrom_eq]

def askD (k : AskKey) : Prop := k.1.length < 65536 ∧ k.2 < 2^32
def bidD (k : BidKey) : Prop := k.1.length < 65536 ∧ k.2.1 < 2^32
def cbidD (k : CBidKey) : Prop := k.1.length < 65536

theorem ask_ord (j j' : AskKey) (h : askD j) (h' : askD j') : bLe (askBytes j) (askBytes j') = askPkLe j j' :=
  rawAsk_le h.1 h'.1 h.2 h'.2
theorem bid_ord (j j' : BidKey) (h : bidD j) (h' : bidD j') : bLe (bidBytes j) (bidBytes j') = bidPkLe j j' :=
  rawBid_le h.1 h'.1 h.2 h'.2
theorem cbid_ord (j j' : CBidKey) (h : cbidD j) (h' : cbidD j') : bLe (cbidBytes j) (cbidBytes j') = cbidPkLe j j' :=
  rawCBid_le h h'

theorem priced_ord {K : Type} {D : K → Prop} {f : K → Bytes} {le : K → K → Bool} (h : ∀ j j', D j → D j' → bLe (f j) (f j') = le j j')
    (j j' : Nat × K) (hj : j.1 < 2^128 ∧ D j.2) (hj' : j'.1 < 2^128 ∧ D j'.2) :
    bLe (priced f j) (priced f j') = lexLe natLe le j j' :=
  (bLe_compBe _ _ (by simpa using hj.1) (by simpa using hj'.1)).trans (lexLe_congr (h _ _ hj.2 hj'.2))

theorem timed_ord {K : Type} {D : K → Prop} {f : K → Bytes} {le : K → K → Bool} (h : ∀ j j', D j → D j' → bLe (f j) (f j') = le j j')
    (j j' : Nat × K) (hj : j.1 < 2^64 ∧ D j.2) (hj' : j'.1 < 2^64 ∧ D j'.2) :
    bLe (timed f j) (timed f j') = lexLe natLe le j j' :=
  (bLe_compBe _ _ (by simpa using hj.1) (by simpa using hj'.1)).trans (lexLe_congr (h _ _ hj.2 hj'.2))

theorem askLin : Lin askPkLe := lexLin lenLin natLin
theorem bidLin : Lin bidPkLe := lexLin lenLin (lexLin natLin bytesLin)
theorem cbidLin : Lin cbidPkLe := lexLin lenLin bytesLin

theorem secs_lt {n : Nat} (h : n < 2^64) : seconds n < 2^64 := Nat.lt_of_le_of_lt (Nat.div_le_self _ _) h

theorem mem_map_some {A B : Type} {P : B → Prop} {f : A → B} {o : Option A} (h : ∀ a ∈ o, P (f a)) : ∀ b ∈ o.map f, P b := by
  intro b hb
  cases o with
  | none => cases hb
  | some a => cases hb; exact h a rfl

theorem incl_comp {c a u : Bytes} (hc : c.length < 65535) (ha : a.length < 65536) :
    bLe (incLast (comp c)) (comp a ++ u) = ltK lenLe c a := by
  have hi := incr_comp hc
  have hc' : c.length < 65536 := by omega
  have hself : bLe (comp c) (incLast (comp c)) = true :=
    ((incr_le hi (b := (incr (comp c)).2) (by rw [incr_length]; exact Nat.le_refl _)).mp (bLe_refl _)).1
  rw [Bool.eq_iff_iff, ltK_lin lenLin]
  have hle : bLe (comp c) (comp a ++ u) = lexLe lenLe bLe (c, []) (a, u) := by
    have := bLe_comp (a := c) (b := a) [] u hc' ha
    rw [List.append_nil] at this; exact this
  have hpre : comp c <+: comp a ++ u ↔ c = a := by
    constructor
    · rintro ⟨v, hv⟩; exact (comp_inj hc' ha hv).1
    · rintro rfl; exact ⟨u, rfl⟩
  constructor
  · intro h
    have h1 := bytesLin.trans _ _ _ hself h
    have hl := comp_le hc' ha h1
    have h2 := (incr_le hi hl).mp h
    rw [hpre] at h2
    rw [hle] at h1
    refine ⟨?_, h2.2⟩
    unfold lexLe at h1
    simp only [if_neg h2.2] at h1
    exact h1
  · rintro ⟨h1, h2⟩
    have h3 : bLe (comp c) (comp a ++ u) = true := by
      rw [hle]; unfold lexLe; simp only [if_neg h2]; exact h1
    exact (incr_le hi (comp_le hc' ha h3)).mpr ⟨h3, by rw [hpre]; exact h2⟩

theorem unbe_two {n : Nat} (h : n < 65536) : unbe (be 2 n) = n := by
  simp [unbe, be]
  omega

theorem firstComp_ask {k : AskKey} (h : k.1.length < 65536) : firstComp (askBytes k) = k.1 := by
  have e : askBytes k = be 2 k.1.length ++ (k.1 ++ be 4 k.2) := by simp [askBytes, join, comp]
  unfold firstComp
  rw [e, List.take_left' (be_length 2 _), List.drop_left' (be_length 2 _), unbe_two h, List.take_left]

/-- Every query, carried out on the store by iterating over an index from its first key to its end key, gives the answer of
the query model. -/
theorem C106_listings {p : Params} {s : State} {r : Raw} (h : OnStore p s r) :
    (∀ start limit, (∀ c ∈ start, c.length < 65535) → kvCollections r start limit = some (queryCollections s start limit)) ∧
    (∀ c incl start limit, c.length < 65535 → (∀ t ∈ start, t < 2^32) →
      kvAsks r c incl false start limit = some (queryAsks s c incl start limit) ∧
      kvAsks r c incl true start limit = some (reverseQueryAsks s c incl start limit)) ∧
    (∀ c incl start limit, c.length < 65535 → (∀ o ∈ start, o.1 < 2^128 ∧ o.2 < 2^32) →
      kvAsksByPrice r c incl false start limit = some (queryAsksSortedByPrice s c incl start limit) ∧
      kvAsksByPrice r c incl true start limit = some (reverseQueryAsksSortedByPrice s c incl start limit)) ∧
    (∀ c, c.length < 65535 → kvAskCount r c = queryAskCount s c) ∧
    (∀ seller incl start limit, seller.length < 65535 → (∀ o ∈ start, o.1.length < 65536 ∧ o.2 < 2^32) →
      kvAsksBySeller r seller incl start limit = some (queryAsksBySeller s seller incl start limit)) ∧
    (∀ bidder start limit, bidder.length < 65535 → (∀ o ∈ start, o.1.length < 65536 ∧ o.2 < 2^32) →
      kvBidsByBidder r bidder start limit = some (queryBidsByBidder s bidder start limit) ∧
      kvBidsByExpiry r bidder start limit = some (queryBidsByBidderSortedByExpiry s bidder start limit)) ∧
    (∀ c tok start limit, c.length < 65536 → tok < 2^32 → kvBids r c tok start limit = some (queryBids s c tok start limit)) ∧
    (∀ c start limit, c.length < 65535 → (∀ o ∈ start, o.1 < 2^128 ∧ o.2.1 < 2^32) →
      kvBidsByPrice r c false start limit = some (queryBidsSortedByPrice s c start limit) ∧
      kvBidsByPrice r c true start limit = some (reverseQueryBidsSortedByPrice s c start limit)) ∧
    (∀ c start limit, c.length < 65535 → (∀ o ∈ start, o.price < 2^128) →
      kvCBidsByPrice r c false start limit = some (queryCBidsSortedByPrice s c start limit) ∧
      kvCBidsByPrice r c true start limit = some (reverseQueryCBidsSortedByPrice s c start limit)) ∧
    (∀ bidder start limit, bidder.length < 65535 → (∀ o ∈ start, o.1.length < 65536) →
      kvCBidsByBidder r bidder start limit = some (queryCBidsByBidder s bidder start limit)) ∧
    (∀ bidder start limit, bidder.length < 65535 → (∀ o ∈ start, o.collection.length < 65536) →
      kvCBidsByExpiry r bidder start limit = some (queryCBidsByBidderSortedByExpiry s bidder start limit)) := by
  have H := h.holds
  obtain ⟨_, _, _, _, _, _, loadBid, loadCBid⟩ := C106_reads h
  have aF : ∀ k a, s.asks.get? k = some a → askD k := fun k a hk => ⟨(H.askFit hk).1, (H.askFit hk).2.1⟩
  have bF : ∀ k b, s.bids.get? k = some b → bidD k := fun k a hk => H.bidFit hk
  have cF : ∀ k b, s.cbids.get? k = some b → cbidD k := fun k a hk => H.cbidFit hk
  have shrt : ∀ {c : Bytes}, c.length < 65535 → ∀ a ∈ [c], a.length < 65536 := by intro c hc a ha; simp at ha; subst ha; omega
  have room : ∀ {c : Bytes}, c.length < 65535 → ∀ a ∈ [c].getLast?, a.length < 65535 := by intro c hc a ha; simp at ha; subst ha; exact hc
  have cAsk : ∀ {c : Addr}, c.length < 65535 → Covers askTable askCollIx [c] s.asks askD askPkLe askBytes
      (fun a => decide (a.collection = c)) (fun k _ => k) := fun hc =>
    ⟨by simp [askTable], shrt hc, room hc, fun k v hv => by simp [askCollIx], fun k v hv _ => ⟨aF k v hv, rfl⟩, ask_ord⟩
  have cAskP : ∀ {c : Addr}, c.length < 65535 → Covers askTable askPriceIx [c] s.asks (fun j => j.1 < 2^128 ∧ askD j.2)
      (lexLe natLe askPkLe) (priced askBytes) (fun a => decide (a.collection = c)) (fun k a => (a.price, k)) := fun hc =>
    ⟨by simp [askTable], shrt hc, room hc, fun k v hv => by simp [askPriceIx], fun k v hv _ => ⟨⟨H.askOk k v hv, aF k v hv⟩, rfl⟩,
      priced_ord ask_ord⟩
  have cAskS : ∀ {c : Addr}, c.length < 65535 → Covers askTable askSellerIx [c] s.asks askD askPkLe askBytes
      (fun a => decide (a.seller = c)) (fun k _ => k) := fun hc =>
    ⟨by simp [askTable], shrt hc, room hc, fun k v hv => by simp [askSellerIx], fun k v hv _ => ⟨aF k v hv, rfl⟩, ask_ord⟩
  have cBidB : ∀ {c : Addr}, c.length < 65535 → Covers bidTable bidBidderIx [c] s.bids bidD bidPkLe bidBytes
      (fun a => decide (a.bidder = c)) (fun k _ => k) := fun hc =>
    ⟨by simp [bidTable], shrt hc, room hc, fun k v hv => by simp [bidBidderIx], fun k v hv _ => ⟨bF k v hv, rfl⟩, bid_ord⟩
  have cBidE : ∀ {c : Addr}, c.length < 65535 → Covers bidTable bidExpiryIx [c] s.bids (fun j => j.1 < 2^64 ∧ bidD j.2)
      (lexLe natLe bidPkLe) (timed bidBytes) (fun a => decide (a.bidder = c)) (fun k b => (seconds b.expiresAt, k)) := fun hc =>
    ⟨by simp [bidTable], shrt hc, room hc, fun k v hv => by simp [bidExpiryIx],
      fun k v hv _ => ⟨⟨secs_lt (H.bidOk k v hv).2.2, bF k v hv⟩, rfl⟩, timed_ord bid_ord⟩
  have cBidP : ∀ {c : Addr}, c.length < 65535 → Covers bidTable bidPriceIx [c] s.bids (fun j => j.1 < 2^128 ∧ bidD j.2)
      (lexLe natLe bidPkLe) (priced bidBytes) (fun a => decide (a.collection = c)) (fun k b => (b.price, k)) := fun hc =>
    ⟨by simp [bidTable], shrt hc, room hc, fun k v hv => by simp [bidPriceIx],
      fun k v hv _ => ⟨⟨(H.bidOk k v hv).2.1, bF k v hv⟩, rfl⟩, priced_ord bid_ord⟩
  have cCBidP : ∀ {c : Addr}, c.length < 65535 → Covers cbidTable cbidPriceIx [c] s.cbids (fun j => j.1 < 2^128 ∧ cbidD j.2)
      (lexLe natLe cbidPkLe) (priced cbidBytes) (fun a => decide (a.collection = c)) (fun k b => (b.price, k)) := fun hc =>
    ⟨by simp [cbidTable], shrt hc, room hc, fun k v hv => by simp [cbidPriceIx],
      fun k v hv _ => ⟨⟨(H.cbidOk k v hv).1, cF k v hv⟩, rfl⟩, priced_ord cbid_ord⟩
  have cCBidB : ∀ {c : Addr}, c.length < 65535 → Covers cbidTable cbidBidderIx [c] s.cbids cbidD cbidPkLe cbidBytes
      (fun a => decide (a.bidder = c)) (fun k _ => k) := fun hc =>
    ⟨by simp [cbidTable], shrt hc, room hc, fun k v hv => by simp [cbidBidderIx], fun k v hv _ => ⟨cF k v hv, rfl⟩, cbid_ord⟩
  have cCBidE : ∀ {c : Addr}, c.length < 65535 → Covers cbidTable cbidExpiryIx [c] s.cbids (fun j => j.1 < 2^64 ∧ cbidD j.2)
      (lexLe natLe cbidPkLe) (timed cbidBytes) (fun a => decide (a.bidder = c)) (fun k b => (seconds b.expiresAt, k)) := fun hc =>
    ⟨by simp [cbidTable], shrt hc, room hc, fun k v hv => by simp [cbidExpiryIx],
      fun k v hv _ => ⟨⟨secs_lt (H.cbidOk k v hv).2, cF k v hv⟩, rfl⟩, timed_ord cbid_ord⟩
  refine ⟨fun start limit hs => ?_, fun c incl start limit hc hs => ?_, fun c incl start limit hc hs => ?_, fun c hc => ?_,
    fun c incl start limit hc hs => ?_, fun c start limit hc hs => ⟨?_, ?_⟩, fun c tok start limit hc ht => ?_,
    fun c start limit hc hs => ?_, fun c start limit hc hs => ?_, fun c start limit hc hs => ?_, fun c start limit hc hs => ?_⟩
  · -- collections
    have hrec := records_eq askGood H.asks askLin (desc := false) (D := askD) (enc := askBytes) (key := fun k => k)
      (mn := none) (mx := none) (fun k v hv => ⟨aF k v hv, rfl⟩) ask_ord (fun _ h => by cases h) (fun _ h => by cases h)
    have hrange : range r (pfx [askTable.ns]) false (start.map (fun c => .incl (incLast (comp c)))) none =
        (range r (pfx [askTable.ns]) false none none).filter (fun e =>
          match start with
          | none => true
          | some c => bLe (incLast (comp c)) e.1) := by
      rw [space_range (askGood.last _ (by simp)), space_range (askGood.last _ (by simp))]
      cases start with
      | none => exact (List.filter_eq_self.mpr (fun _ _ => rfl)).symm
      | some c =>
        unfold within scan
        simp only [Option.map_some, okMin, okMax, Bool.and_true, Bool.false_eq_true, if_false]
        congr 1
        exact (List.filter_eq_self.mpr (fun _ _ => rfl)).symm
    unfold kvCollections queryCollections
    have hi : index s.asks (fun _ => true) (fun k _ => k) = s.asks.l := by
      unfold index; rw [List.filter_eq_self.mpr (fun _ _ => rfl)]; exact List.map_id'' (fun _ => rfl) _
    rw [hi] at hrec
    refine mapM_eq (g := fun e : AskKey × Ask => e.1.1) ?_
    rw [hrange]
    have hrec2 : (range r (pfx [askTable.ns]) false none none).map (fun e => (e.1, (askTable.dec e.2).map (fun _ => firstComp e.1))) =
        (scan askPkLe s.asks.l false none none).map (fun e => (askBytes e.1, some e.1.1)) := by
      have h2 := congrArg (fun l => l.map (fun x : Bytes × Option (Bytes × Ask) => (x.1, x.2.map (fun y => firstComp y.1)))) hrec
      simp only [List.map_map] at h2
      refine Eq.trans ?_ (h2.trans ?_)
      · refine List.map_congr_left (fun e _ => ?_)
        simp only [Function.comp, Option.map_map]; rfl
      · refine List.map_congr_left (fun e he => ?_)
        have hm := (mem_scan.mp he).1
        have := aF e.1 e.2 (AMap.mem_iff.mp hm)
        simp [Function.comp, firstComp_ask this.1]
    have h3 : ((range r (pfx [askTable.ns]) false none none).map
        (fun e => (e.1, (askTable.dec e.2).map (fun _ => firstComp e.1)))).filter (fun e =>
          match start with
          | none => true
          | some c => bLe (incLast (comp c)) e.1) = ((scan askPkLe s.asks.l false none none).filter (fun e =>
          match start with
          | none => true
          | some c => ltK lenLe c e.1.1)).map (fun e => (askBytes e.1, some e.1.1)) := by
      rw [hrec2, List.filter_map]
      congr 1
      refine List.filter_congr (fun e he => ?_)
      have hm := (mem_scan.mp he).1
      have hd := aF e.1 e.2 (AMap.mem_iff.mp hm)
      cases start with
      | none => rfl
      | some c => exact incl_comp (hs c rfl) hd.1
    rw [List.filter_map] at h3
    have h4 := congrArg (fun l => (l.take (querySize limit)).map Prod.snd) h3
    simp only [← List.map_take, List.map_map] at h4
    exact h4
  · have hs' : ∀ j ∈ some (c, start.getD 0), askD j := by
      intro j hj; cases hj
      refine ⟨by simp only; omega, ?_⟩
      cases start with
      | none => exact Nat.two_pow_pos 32
      | some t => exact hs t rfl
    exact ⟨pageOf_eq askGood H.asks askLin (cAsk hc) false _ hs' _, pageOf_eq askGood H.asks askLin (cAsk hc) true _ hs' _⟩
  · have hs' : ∀ j ∈ start.map (fun o => (o.1, (c, o.2))), j.1 < 2^128 ∧ askD j.2 :=
      mem_map_some (fun o ho => ⟨(hs o ho).1, by simp only; omega, (hs o ho).2⟩)
    have e := fun d => pageOf_eq askGood H.asks (lexLin natLin askLin) (cAskP hc) d (showAsk incl) hs' (querySize limit)
    simp only [Option.map_map] at e
    exact ⟨e false, e true⟩
  · have e := congrArg List.length (range_eq askGood H.asks askLin (cAsk hc) (desc := false) (mn := none) (mx := none)
      (fun _ h => by cases h) (fun _ h => by cases h))
    simp only [List.length_map, Option.map_none] at e
    unfold kvAskCount queryAskCount
    rw [e]
    congr 1
    unfold scan
    simp only [okMin, okMax, Bool.and_true, Bool.false_eq_true, if_false]
    rw [List.filter_eq_self.mpr (fun _ _ => rfl)]
    exact (sortBy_perm _).length_eq
  · exact pageOf_eq askGood H.asks askLin (cAskS hc) false _ (fun o ho => hs o ho) _
  · have hs' : ∀ j ∈ start.map (fun o => (o.1, o.2, c)), bidD j := mem_map_some (fun o ho => hs o ho)
    have e := pageOf_eq bidGood H.bids bidLin (cBidB hc) false (fun _ => true) hs' (querySize limit)
    simp only [Option.map_map] at e
    exact e
  · have hb : ∀ o ∈ start, bidTable.load r (o.1, o.2, c) = queryBid s o.1 o.2 c := fun o ho => loadBid _ _ _ (hs o ho).1 (hs o ho).2
    have hs' : ∀ j ∈ start.bind (fun o => (queryBid s o.1 o.2 c).map (fun b => (seconds b.expiresAt, (o.1, o.2, c)))),
        j.1 < 2^64 ∧ bidD j.2 := by
      intro j hj
      cases start with
      | none => cases hj
      | some o =>
        simp only [Option.bind_some, Option.mem_def, Option.map_eq_some_iff] at hj
        obtain ⟨b, hb1, rfl⟩ := hj
        exact ⟨secs_lt (H.bidOk _ b hb1).2.2, hs o rfl⟩
    have e := pageOf_eq bidGood H.bids (lexLin natLin bidLin) (cBidE hc) false (fun _ => true) hs' (querySize limit)
    unfold kvBidsByExpiry queryBidsByBidderSortedByExpiry
    rw [← e]
    congr 1
    cases start with
    | none => rfl
    | some o => simp only [Option.bind_some]; rw [hb o rfl, Option.map_map]; rfl
  · have cv : Covers bidTable bidTokenIx [c, be 4 tok] s.bids (fun _ => True) bLe (fun j => j)
        (fun b => decide (b.collection = c ∧ b.tokenId = tok)) (fun k _ => bidPkRaw k) := by
      refine ⟨by simp [bidTable], ?_, ?_, fun k v hv => ?_, fun k v hv _ => ⟨trivial, rfl⟩, fun _ _ _ _ => rfl⟩
      · intro a ha; simp at ha; rcases ha with rfl | rfl
        · exact hc
        · rw [be_length]; omega
      · intro a ha; simp at ha; subst ha; rw [be_length]; omega
      · simp only [bidTokenIx, List.length_cons, List.length_nil, List.take, decide_eq_true_eq, List.cons.injEq, and_true]
        refine ⟨by omega, fun e => ⟨e.1, by rw [e.2]⟩, fun e => ⟨e.1, be_inj (n := 4) (H.bidOk k v hv).1 ht e.2⟩⟩
    have e := pageOf_eq bidGood H.bids bytesLin cv false (fun _ => true) (start := start) (fun _ _ => trivial) (querySize limit)
    rw [Option.map_id'] at e
    exact e
  · have hs' : ∀ j ∈ start.map (fun o => (o.1, (c, o.2))), j.1 < 2^128 ∧ bidD j.2 :=
      mem_map_some (fun o ho => ⟨(hs o ho).1, by simp only; omega, (hs o ho).2⟩)
    have e := fun d => pageOf_eq bidGood H.bids (lexLin natLin bidLin) (cBidP hc) d (fun _ => true) hs' (querySize limit)
    simp only [Option.map_map] at e
    exact ⟨e false, e true⟩
  · have hs' : ∀ j ∈ start.map (fun o : CBidOffset => (o.price, (c, o.bidder))), j.1 < 2^128 ∧ cbidD j.2 :=
      mem_map_some (fun o ho => ⟨hs o ho, by unfold cbidD; simp only; omega⟩)
    have e := fun d => pageOf_eq cbidGood H.cbids (lexLin natLin cbidLin) (cCBidP hc) d (fun _ => true) hs' (querySize limit)
    simp only [Option.map_map] at e
    exact ⟨e false, e true⟩
  · have hs' : ∀ j ∈ start.map (fun o => (o.1, c)), cbidD j := mem_map_some (fun o ho => hs o ho)
    have e := pageOf_eq cbidGood H.cbids cbidLin (cCBidB hc) false (fun _ => true) hs' (querySize limit)
    simp only [Option.map_map] at e
    exact e
  · have hb : ∀ o ∈ start, cbidTable.load r (o.collection, o.bidder) = queryCollectionBid s o.collection o.bidder :=
      fun o ho => loadCBid _ _ (hs o ho)
    have hs' : ∀ j ∈ start.bind (fun o =>
        (queryCollectionBid s o.collection o.bidder).map (fun b => (seconds b.expiresAt, (o.collection, o.bidder)))),
        j.1 < 2^64 ∧ cbidD j.2 := by
      intro j hj
      cases start with
      | none => cases hj
      | some o =>
        simp only [Option.bind_some, Option.mem_def, Option.map_eq_some_iff] at hj
        obtain ⟨b, hb1, rfl⟩ := hj
        exact ⟨secs_lt (H.cbidOk _ b hb1).2, hs o rfl⟩
    have e := pageOf_eq cbidGood H.cbids (lexLin natLin cbidLin) (cCBidE hc) false (fun _ => true) hs' (querySize limit)
    unfold kvCBidsByExpiry queryCBidsByBidderSortedByExpiry
    rw [← e]
    congr 1
    cases start with
    | none => rfl
    | some o => simp only [Option.bind_some]; rw [hb o rfl, Option.map_map]; rfl

/-! ### C106: every call consists of such writes -/

/-- A write whose components are short enough. -/
def Write.Okay : Write → Prop
  | .ask k a => k.1.length < 65536 ∧ a.collection.length < 65536 ∧ a.seller.length < 65536 ∧ k.2 < 2^32 ∧ a.price < 2^128
  | .rmAsk k => k.1.length < 65536 ∧ k.2 < 2^32
  | .bid k b => k.1.length < 65536 ∧ b.collection.length < 65536 ∧ b.bidder.length < 65536 ∧ k.2.1 < 2^32 ∧ b.tokenId < 2^32 ∧
    b.price < 2^128 ∧ b.expiresAt < 2^64
  | .rmBid k => k.1.length < 65536 ∧ k.2.1 < 2^32
  | .cbid k b => k.1.length < 65536 ∧ b.collection.length < 65536 ∧ b.bidder.length < 65536 ∧ b.price < 2^128 ∧ b.expiresAt < 2^64
  | .rmCBid k => k.1.length < 65536
  | _ => True

theorem raw_some {w : Write} (hw : w.Okay) (r : Raw) : w.Typed ∧ ∃ r', w.raw r = some r' := by
  have e4 : ∀ n, (be 4 n).length = 4 := be_length 4
  have e8 : ∀ n, (be 8 n).length = 8 := be_length 8
  have e16 : ∀ n, (be 16 n).length = 16 := be_length 16
  cases w with
  | params c => exact ⟨trivial, _, rfl⟩
  | hooks x l => exact ⟨trivial, _, rfl⟩
  | version n v => exact ⟨trivial, _, rfl⟩
  | ask k a =>
    obtain ⟨h1, h2, h3, h4, h5⟩ := hw
    exact ⟨⟨h4, h5⟩, save_some (by simp [Table.okay, askTable, askCollIx, askPriceIx, askSellerIx, fits, h1, h2, h3, e16]; decide +kernel)⟩
  | rmAsk k =>
    obtain ⟨h1, h2⟩ := hw
    exact ⟨h2, remove_some (by simp [askTable, fits, h1]; decide +kernel)⟩
  | bid k b =>
    obtain ⟨h1, h2, h3, h4, h5, h6, h7⟩ := hw
    exact ⟨⟨h4, h5, h6, h7⟩, save_some (by
      simp [Table.okay, bidTable, bidCollIx, bidTokenIx, bidPriceIx, bidBidderIx, bidExpiryIx, fits, h1, h2, h3, e4, e8, e16]
      decide +kernel)⟩
  | rmBid k =>
    obtain ⟨h1, h2⟩ := hw
    exact ⟨h2, remove_some (by simp [bidTable, fits, h1, e4]; decide +kernel)⟩
  | cbid k b =>
    obtain ⟨h1, h2, h3, h4, h5⟩ := hw
    exact ⟨⟨h4, h5⟩, save_some (by
      simp [Table.okay, cbidTable, cbidCollIx, cbidPriceIx, cbidBidderIx, cbidExpiryIx, fits, h1, h2, h3, e8, e16]
      decide +kernel)⟩
  | rmCBid k =>
    have h1 : k.1.length < 65536 := hw
    exact ⟨trivial, remove_some (by simp [cbidTable, fits, h1]; decide +kernel)⟩

theorem rawAll_some {ws : List Write} (hw : ∀ w ∈ ws, w.Okay) : ∀ r : Raw, ∃ r', rawAll ws r = some r' := by
  induction ws with
  | nil => intro r; exact ⟨r, rfl⟩
  | cons w ws ih =>
    intro r
    obtain ⟨_, r1, h1⟩ := raw_some (hw w (by simp)) r
    obtain ⟨r2, h2⟩ := ih (fun x hx => hw x (by simp [hx])) r1
    exact ⟨r2, by unfold rawAll; rw [h1]; exact h2⟩

theorem bidArgs_sized {m : Exec} {b : BidArgs} {sender : Addr} {n : Nat} (h : bidArgs m = some b) (hz : m.Sized sender [⟨NATIVE, n⟩]) :
    b.coll.length < 65536 ∧ b.tok < 2^32 ∧ b.expires < 2^64 ∧ sender.length < 65536 ∧ n < 2^128 := by
  cases m <;> simp only [bidArgs, reduceCtorEq, Option.some.injEq] at h
  all_goals
    subst h
    obtain ⟨h1, h2, h3, h4, h5⟩ := hz
    exact ⟨h1, h2, h3, h4, h5 ⟨NATIVE, n⟩ (by simp)⟩

theorem execute_writes {p : Params} {ctx : Ctx} {sender : Addr} {funds : List Coin} {m : Exec} {s s' : State} {msgs : List Msg} {r : Raw}
    (H : Holds r s) (hz : m.Sized sender funds) (h : execute p ctx sender funds m s = .ok (s', msgs)) :
    ∃ ws : List Write, s' = ws.foldl Write.app s ∧ ∀ w ∈ ws, w.Okay := by
  have one : ∀ (w : Write), w.Okay → ∀ x ∈ [w], x.Okay := by
    intro w hw x hx; simp at hx; subst hx; exact hw
  have two : ∀ (w w' : Write), w.Okay → w'.Okay → ∀ x ∈ [w, w'], x.Okay := by
    intro w w' hw hw' x hx; simp at hx; rcases hx with rfl | rfl
    · exact hw
    · exact hw'
  cases execute_eff h with
  | setAsk ty coll tok price recipient reserveFor fee expires paid =>
    obtain ⟨h1, h2, h3, h4⟩ := hz
    exact ⟨[.ask (coll, tok) ⟨ty, coll, tok, sender, price.amount, recipient, reserveFor, fee, expires, true⟩], rfl,
      one _ ⟨h1, h1, h4, h2, h3⟩⟩
  | removeAsk coll tok ask hv hf hown ha =>
    have f := H.askFit ha
    exact ⟨[.rmAsk (coll, tok)], rfl, one _ ⟨f.1, f.2.1⟩⟩
  | updatePrice coll tok price ask hv hf hown hpos hden hmin ha =>
    have f := H.askFit ha
    exact ⟨[.ask (coll, tok) { ask with price := price.amount }], rfl, one _ ⟨f.1, f.2.2.1, f.2.2.2, f.2.1, hz⟩⟩
  | bidSaved _ b price hm hv hfinder hfee hfunds =>
    subst hfunds
    obtain ⟨h1, h2, h3, h4, h5⟩ := bidArgs_sized hm hz
    exact ⟨[.rmBid (b.coll, b.tok, sender), .bid (b.coll, b.tok, sender) ⟨b.coll, b.tok, sender, price, b.fee, b.expires⟩], rfl,
      two _ _ ⟨h1, h2⟩ ⟨h1, h1, h4, h2, h2, h5, h3⟩⟩
  | bought _ b price ask sale hm hv hfinder hfee hfunds hpos hmin ha =>
    have f := H.askFit ha
    exact ⟨[.rmBid (b.coll, b.tok, sender), .rmAsk (b.coll, b.tok)], rfl, two _ _ ⟨f.1, f.2.1⟩ ⟨f.1, f.2.1⟩⟩
  | removeBid coll tok bid hv hf hb =>
    have f := H.bidFit hb
    exact ⟨[.rmBid (coll, tok, sender)], rfl, one _ f⟩
  | acceptBid coll tok bidder finder bid sale hv hf hown htr hb =>
    have f := H.bidFit hb
    exact ⟨[.rmAsk (coll, tok), .rmBid (coll, tok, bidder)], rfl, two _ _ f f⟩
  | rejectBid coll tok bidder bid hv hf hown hb =>
    have f := H.bidFit hb
    exact ⟨[.rmBid (coll, tok, bidder)], rfl, one _ f⟩
  | setCBid coll expires fee price hv hfunds =>
    subst hfunds
    obtain ⟨h1, h2, h3, h4⟩ := hz
    exact ⟨[.cbid (coll, sender) ⟨coll, sender, price, fee, expires⟩], rfl, one _ ⟨h1, h1, h3, h4 ⟨NATIVE, price⟩ (by simp), h2⟩⟩
  | removeCBid coll bid hv hf hb =>
    have f := H.cbidFit hb
    exact ⟨[.rmCBid (coll, sender)], rfl, one _ f⟩
  | acceptCBid coll tok bidder finder bid sale hv hf hown htr hb =>
    have f := H.cbidFit hb
    exact ⟨[.rmCBid (coll, bidder), .rmAsk (coll, tok)], rfl, two _ _ f ⟨f, hz⟩⟩
  | syncAsk coll tok ask hv hf hop ha =>
    have f := H.askFit ha
    exact ⟨[.ask (coll, tok) { ask with isActive := ctx.q.approval coll (tokStr tok) }], rfl,
      one _ ⟨f.1, f.2.2.1, f.2.2.2, f.2.1, H.askOk _ ask ha⟩⟩
  | staleAsk coll tok ask hv hf hop ha =>
    have f := H.askFit ha
    exact ⟨[.rmAsk (coll, tok)], rfl, one _ ⟨f.1, f.2.1⟩⟩
  | staleBid coll tok bidder bid n hv hf hop hb =>
    have f := H.bidFit hb
    exact ⟨[.rmBid (coll, tok, bidder)], rfl, one _ f⟩
  | staleCBid coll bidder bid n hv hf hop hb =>
    have f := H.cbidFit hb
    exact ⟨[.rmCBid (coll, bidder)], rfl, one _ f⟩

theorem sudo_writes {p : Params} {ctx : Ctx} {m : Sudo} {s s' : State} {msgs : List Msg} (h : sudo p ctx m s = .ok (s', msgs)) :
    ∃ ws : List Write, s' = ws.foldl Write.app s ∧ ∀ w ∈ ws, w.Okay := by
  have one : ∀ (w : Write), w.Okay → ∀ x ∈ [w], x.Okay := by
    intro w hw x hx; simp at hx; subst hx; exact hw
  cases (sudo_eff h).1 with
  | params u c => exact ⟨[.params c], rfl, one _ trivial⟩
  | addOp a => exact ⟨[.params { s.params with operators := s.params.operators ++ [a] }], rfl, one _ trivial⟩
  | removeOp a => exact ⟨[.params { s.params with operators := s.params.operators.erase a }], rfl, one _ trivial⟩
  | addSale a => exact ⟨[.hooks .sale (s.saleHooks ++ [a])], rfl, one _ trivial⟩
  | addAsk a => exact ⟨[.hooks .ask (s.askHooks ++ [a])], rfl, one _ trivial⟩
  | addBid a => exact ⟨[.hooks .bid (s.bidHooks ++ [a])], rfl, one _ trivial⟩
  | removeSale a => exact ⟨[.hooks .sale (s.saleHooks.erase a)], rfl, one _ trivial⟩
  | removeAsk a => exact ⟨[.hooks .ask (s.askHooks.erase a)], rfl, one _ trivial⟩
  | removeBid a => exact ⟨[.hooks .bid (s.bidHooks.erase a)], rfl, one _ trivial⟩

/-- Every successful call can be carried out on the store, unless a collection or an account whose address has 65536 bytes or
more becomes part of an order. -/
theorem C106_calls {p : Params} {s s' : State} {r : Raw} {ctx : Ctx} {msgs : List Msg} (h : OnStore p s r) :
    (∀ sender funds m, m.Sized sender funds → execute p ctx sender funds m s = .ok (s', msgs) → ∃ r', OnStore p s' r') ∧
    (∀ m, sudo p ctx m s = .ok (s', msgs) → ∃ r', OnStore p s' r') := by
  constructor
  · intro sender funds m hz hx
    obtain ⟨ws, h1, h2⟩ := execute_writes h.holds hz hx
    obtain ⟨r', hr⟩ := rawAll_some h2 r
    exact ⟨r', .call h hx (fun w hw => (raw_some (h2 w hw) r).1) h1 hr⟩
  · intro m hx
    obtain ⟨ws, h1, h2⟩ := sudo_writes hx
    obtain ⟨r', hr⟩ := rawAll_some h2 r
    exact ⟨r', .sudo h hx (fun w hw => (raw_some (h2 w hw) r).1) h1 hr⟩

/-- Namespaces of the contract are distinct. -/
theorem C106_namespaces : ([str "sudo-params", str "ask-hooks", str "bid-hooks", str "sale-hooks", str "collection-bid-hooks", str "contract_info"] ++
    [str "asks", str "asks__collection", str "asks__collection_price", str "asks__seller",
     str "bids", str "bids__collection", str "bids__collection_token_id", str "bids__collection_price", str "bids__bidder", str "bids__bidder_expires_at",
     str "col_bids", str "col_bids__collection", str "col_bids__collection_price", str "col_bids__bidder", str "col_bids__bidder_expires_at"]).Nodup := by
  decide +kernel

namespace Sample

def kvAsk : Ask := ⟨.fixedPrice, coll, 1, alice, 101, none, none, some 500, 2000 * NSs, true⟩
def kvBid (n : Nat) : Bid := ⟨coll, 1, bob, n, some 300, 3000 * NSs⟩
def kvCBid : CBid := ⟨coll, carol, 50, none, 3000 * NSs⟩
def raw0 : Raw := (rawInit [109] [49] s0.params (some hk)).getD .empty
def raw1 : Raw := (rawAll [.hooks .ask [hk]] raw0).getD .empty
def raw2 : Raw := (rawAll [.hooks .bid [hk]] raw1).getD .empty
def raw3 : Raw := (rawAll [.ask (coll, 1) kvAsk] raw2).getD .empty
def raw4 : Raw := (rawAll [.bid (coll, 1, bob) (kvBid 60)] raw3).getD .empty
def raw5 : Raw := (rawAll [.cbid (coll, carol) kvCBid] raw4).getD .empty
def raw6 : Raw := (rawAll [.rmBid (coll, 1, bob), .bid (coll, 1, bob) (kvBid 70)] raw5).getD .empty

theorem onStore6 : OnStore P s6 raw6 := by
  have h0 : OnStore P s0 raw0 := .init init0 (name := [109]) (version := [49]) rfl
  have h1 : OnStore P s1 raw1 := .sudo h0 (srun_eq (c := ctx 1000) (m := .addAskHook hk) (s := s0) (by decide +kernel))
    (ws := [.hooks .ask [hk]]) (by intro w hw; simp at hw; subst hw; trivial) rfl rfl
  have h2 : OnStore P s2 raw2 := .sudo h1 (srun_eq (c := ctx 1000) (m := .addBidHook hk) (s := s1) (by decide +kernel))
    (ws := [.hooks .bid [hk]]) (by intro w hw; simp at hw; subst hw; trivial) rfl rfl
  have h3 : OnStore P s3 raw3 := .call h2 (run_eq (c := ctx 1000) (sender := alice) (funds := us 3) (m := askMsg) (by decide +kernel))
    (ws := [.ask (coll, 1) kvAsk]) (by intro w hw; simp at hw; subst hw; exact ⟨by decide, by decide⟩) rfl rfl
  have h4 : OnStore P s4 raw4 := .call h3 (run_eq (c := ctx 1000) (sender := bob) (funds := us 60) (m := bidMsg) (by decide +kernel))
    (ws := [.bid (coll, 1, bob) (kvBid 60)])
    (by intro w hw; simp at hw; subst hw; exact ⟨by decide, by decide, by decide, by decide⟩) rfl rfl
  have h5 : OnStore P s5 raw5 := .call h4 (run_eq (c := ctx 1000) (sender := carol) (funds := us 50)
    (m := .setCollectionBid coll (3000 * NSs) none) (by decide +kernel))
    (ws := [.cbid (coll, carol) kvCBid]) (by intro w hw; simp at hw; subst hw; exact ⟨by decide, by decide⟩) rfl rfl
  exact .call h5 (run_eq (c := ctx 1001) (sender := bob) (funds := us 70) (m := bidMsg) (by decide +kernel))
    (ws := [.rmBid (coll, 1, bob), .bid (coll, 1, bob) (kvBid 70)])
    (by intro w hw; simp at hw; rcases hw with rfl | rfl
        · exact (by decide : (1 : Nat) < 2^32)
        · exact ⟨by decide, by decide, by decide, by decide⟩) rfl rfl

end Sample

/-- The store of the sample: five items, an ask with three index entries, a bid with five and a collection bid with four. When
the bid was raised, its entry of the price index moved. -/
example : Sample.raw6.l.length = 5 + 4 + 6 + 5 ∧
    Sample.raw5.get? (comp (str "bids__collection_price") ++
      (comp Sample.coll ++ (comp (be 16 60) ++ (comp Sample.coll ++ (comp (be 4 1) ++ Sample.bob))))) = some (.len 14) ∧
    Sample.raw6.get? (comp (str "bids__collection_price") ++
      (comp Sample.coll ++ (comp (be 16 60) ++ (comp Sample.coll ++ (comp (be 4 1) ++ Sample.bob))))) = none ∧
    Sample.raw6.get? (comp (str "bids__collection_price") ++
      (comp Sample.coll ++ (comp (be 16 70) ++ (comp Sample.coll ++ (comp (be 4 1) ++ Sample.bob))))) = some (.len 14) ∧
    kvBidsByPrice Sample.raw6 Sample.coll true none none = some [Sample.kvBid 70] ∧
    kvAsks Sample.raw6 Sample.coll none false none none = some [Sample.kvAsk] ∧
    kvAsks Sample.raw6 Sample.coll none false (some 1) none = some [] ∧
    kvCollections Sample.raw6 none none = some [Sample.coll] ∧ kvCollections Sample.raw6 (some Sample.coll) none = some [] ∧
    kvCBidsByExpiry Sample.raw6 Sample.carol none none = some [Sample.kvCBid] ∧ kvHooks Sample.raw6 .cbid = [] := by
  decide +kernel

end Verif.V1

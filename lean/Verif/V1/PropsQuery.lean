/-
Properties of the marketplace v1 queries: C57, C58, C59, C67-C73. Helper lemmas are in Listing.lean.
-/
import Verif.V1.Listing
import Verif.V1.Sample

namespace Verif.V1
open Verif Spec

/-! ### Specification -/

namespace Spec

/-- An ask stored in `s`, of collection `c`, and active unless inactive asks are asked for. -/
def AskOf (s : State) (c : Addr) (incl : Option Bool) (a : Ask) : Prop :=
  (∃ k, s.asks.get? k = some a) ∧ a.collection = c ∧ (incl = some true ∨ a.isActive = true)

def AskBy (s : State) (seller : Addr) (incl : Option Bool) (a : Ask) : Prop :=
  (∃ k, s.asks.get? k = some a) ∧ a.seller = seller ∧ (incl = some true ∨ a.isActive = true)

def BidOf (s : State) (c : Addr) (b : Bid) : Prop := (∃ k, s.bids.get? k = some b) ∧ b.collection = c
def BidBy (s : State) (bidder : Addr) (b : Bid) : Prop := (∃ k, s.bids.get? k = some b) ∧ b.bidder = bidder
def CBidOf (s : State) (c : Addr) (b : CBid) : Prop := (∃ k, s.cbids.get? k = some b) ∧ b.collection = c
def CBidBy (s : State) (bidder : Addr) (b : CBid) : Prop := (∃ k, s.cbids.get? k = some b) ∧ b.bidder = bidder

/-- (price, token) -/
def priceTok (a b : Nat × Nat) : Prop := a.1 < b.1 ∨ (a.1 = b.1 ∧ a.2 < b.2)
/-- (price, token, bidder) -/
def priceTokBidder (a b : Nat × Nat × Addr) : Prop :=
  a.1 < b.1 ∨ (a.1 = b.1 ∧ (a.2.1 < b.2.1 ∨ (a.2.1 = b.2.1 ∧ dict a.2.2 b.2.2)))
/-- (price, bidder) -/
def priceBidder (p : Nat) (x : Addr) (q : Nat) (y : Addr) : Prop := p < q ∨ (p = q ∧ dict x y)
/-- (collection, token) -/
def collTok (a b : Addr × Nat) : Prop := shortlex a.1 b.1 ∨ (a.1 = b.1 ∧ a.2 < b.2)

/-- what a client passes to continue after an order -/
def askOffset (a : Ask) : Nat × Nat := (a.price, a.tokenId)
def bidOffset (b : Bid) : Nat × Nat × Addr := (b.price, b.tokenId, b.bidder)
def cbidOffset (b : CBid) : CBidOffset := ⟨b.price, b.collection, b.bidder⟩

end Spec

variable {p : Params} {me : Addr}

theorem show_iff {incl : Option Bool} {a : Ask} : showAsk incl a = true ↔ incl = some true ∨ a.isActive = true := by
  unfold showAsk
  split
  · simp
  · case h_2 h =>
    constructor
    · exact Or.inr
    · rintro (h' | h')
      · exact absurd h' h
      · exact h'

theorem askOf_iff {J : Type} {s : State} {c : Addr} {incl : Option Bool} {key : AskKey → Ask → J} (v : Ask) :
    AskOf s c incl v ↔ ∃ k, (k, v) ∈ index s.asks (fun a => decide (a.collection = c)) key ∧ showAsk incl v = true := by
  unfold AskOf
  constructor
  · rintro ⟨⟨k, h1⟩, h2, h3⟩
    exact ⟨_, mem_index.mpr ⟨k, h1, by simpa using h2, rfl⟩, show_iff.mpr h3⟩
  · rintro ⟨_, h, h3⟩
    obtain ⟨k, h1, h2, _⟩ := mem_index.mp h
    exact ⟨⟨k, h1⟩, by simpa using h2, show_iff.mp h3⟩

theorem sel_iff {J K V : Type} [DecidableEq K] {m : AMap K V} {P : V → Prop} [DecidablePred P] {key : K → V → J} (v : V) :
    ((∃ k, m.get? k = some v) ∧ P v) ↔ ∃ k, (k, v) ∈ index m (fun a => decide (P a)) key ∧ (fun _ : V => true) v = true := by
  constructor
  · rintro ⟨⟨k, h1⟩, h2⟩
    exact ⟨_, mem_index.mpr ⟨k, h1, by simpa using h2, rfl⟩, rfl⟩
  · rintro ⟨_, h, _⟩
    obtain ⟨k, h1, h2, _⟩ := mem_index.mp h
    exact ⟨⟨k, h1⟩, by simpa using h2⟩

/-! ### C57, C58: asks by token -/

/-- Full statement of C57. -/
def C57_statement : Prop :=
  ∀ (p : Params) (me : Addr) (s : State), Reach p me s → ∀ (c : Addr) (incl : Option Bool) (limit : Option Nat),
    Paged (fun a b => a.tokenId < b.tokenId) (fun t a => t < a.tokenId) Ask.tokenId (AskOf s c incl)
      (queryAsks s c incl) none limit

theorem pages_start {V O : Type} {query : Option O → Option Nat → List V} {off : V → O} {limit : Option Nat} {a b : Option O}
    (h : query a limit = query b limit) (n : Nat) : pages query off limit n a = pages query off limit n b := by
  cases n with
  | zero => rfl
  | succ n => unfold pages; rw [h]

theorem askKey {s : State} (hw : WF p me s) {c : Addr} {e : AskKey × Ask}
    (he : e ∈ index s.asks (fun a => decide (a.collection = c)) (fun k _ => k)) : (c, e.2.tokenId) = e.1 := by
  obtain ⟨k, v⟩ := e
  obtain ⟨k', h1, h2, h3⟩ := mem_index.mp he
  have h4 := (hw.asks _ _ h1).key
  have h5 : v.collection = c := by simpa using h2
  rw [← h3, ← h4, h5]

theorem later_up {c : Addr} {a b : Nat} : later askPkLe false (c, a) (c, b) = true ↔ a < b := by
  show ltK askPkLe (c, a) (c, b) = true ↔ _
  rw [ltK_ask]
  simp [shortlex_irrefl]

theorem later_down {c : Addr} {a b : Nat} : later askPkLe true (c, a) (c, b) = true ↔ b < a := by
  show ltK askPkLe (c, b) (c, a) = true ↔ _
  rw [ltK_ask]
  simp [shortlex_irrefl]

/-- Without `start_after` the asks with token id above 0 are listed in order, and paging reaches them all; with
`start_after` those above it. Missing: an ask on token 0. -/
theorem C57_partial {s : State} (hr : Reach p me s) (c : Addr) (incl : Option Bool) (start limit : Option Nat) :
    Paged (fun a b => a.tokenId < b.tokenId) (fun t a => t < a.tokenId) Ask.tokenId
      (fun a => AskOf s c incl a ∧ 0 < a.tokenId) (queryAsks s c incl) start limit := by
  obtain ⟨all, h1, h2, h3, h4⟩ := paged_of (sel := AskOf s c incl) (before := fun a b => a.tokenId < b.tokenId)
    (after := fun t a => t < a.tokenId) (start := some (start.getD 0)) (limit := limit) (query := queryAsks s c incl)
    (mk := fun t => (c, t)) (off := Ask.tokenId)
    askPkLin (index_nodup' id (fun _ _ => rfl)) (fun _ he _ => askKey hr.wf he)
    (fun _ _ _ => rfl) rfl askOf_iff (fun _ _ _ _ h => later_up.mp h) (fun _ _ _ _ => later_up)
  refine ⟨all, ?_, h2, h3, fun n => ?_⟩
  · intro v
    rw [h1]
    constructor
    · rintro ⟨h5, h6⟩
      have := h6 _ rfl
      refine ⟨⟨h5, by omega⟩, ?_⟩
      rintro o rfl
      exact this
    · rintro ⟨⟨h5, h6⟩, h7⟩
      refine ⟨h5, ?_⟩
      rintro o ho
      cases ho
      cases start with
      | none => exact h6
      | some o => exact h7 o rfl
  · rw [← h4]
    refine pages_start ?_ n
    rfl

/-- Full statement of C58. -/
def C58_statement : Prop :=
  ∀ (p : Params) (me : Addr) (s : State), Reach p me s → ∀ (c : Addr) (incl : Option Bool) (limit : Option Nat),
    Paged (fun a b => b.tokenId < a.tokenId) (fun t a => a.tokenId < t) Ask.tokenId (AskOf s c incl)
      (reverseQueryAsks s c incl) none limit

/-- With `start_before` the asks below it are listed from the highest down, and paging reaches them all. Missing: without
`start_before` nothing is returned, which is the last conjunct. -/
theorem C58_partial {s : State} (hr : Reach p me s) (c : Addr) (incl : Option Bool) (limit : Option Nat) :
    (∀ t, Paged (fun a b => b.tokenId < a.tokenId) (fun t a => a.tokenId < t) Ask.tokenId (AskOf s c incl)
      (reverseQueryAsks s c incl) (some t) limit) ∧ reverseQueryAsks s c incl none limit = [] := by
  have key : ∀ t, Paged (fun a b => b.tokenId < a.tokenId) (fun t a => a.tokenId < t) Ask.tokenId (AskOf s c incl)
      (reverseQueryAsks s c incl) (some t) limit := fun t =>
    paged_of (mk := fun t => (c, t)) askPkLin (index_nodup' id (fun _ _ => rfl)) (fun _ he _ => askKey hr.wf he)
      (fun _ _ _ => rfl) rfl askOf_iff (fun _ _ _ _ h => later_down.mp h) (fun _ _ _ _ => later_down)
  refine ⟨key, ?_⟩
  show reverseQueryAsks s c incl (some 0) limit = []
  obtain ⟨all, h1, _, _, h4⟩ := key 0
  have h5 : all = [] := by
    cases all with
    | nil => rfl
    | cons a l => exact absurd (((h1 a).mp List.mem_cons_self).2 0 rfl) (by omega)
  have h6 := h4 1
  rw [h5] at h6
  unfold pages at h6
  split at h6
  case h_1 => simpa using h6
  case h_2 v hv =>
    rw [List.take_nil, List.append_eq_nil_iff] at h6
    exact h6.1

namespace Sample
/-- alice lists tokens 0, 2, 3 and 4 as well; the price of token 3 is the lowest -/
def ask (tok price : Nat) : Exec := .setAsk .fixedPrice coll tok ⟨NATIVE, price⟩ none none none (2000 * NSs)
def a1 : State := (run (ctx 1000) alice (us 3) (ask 0 40) s3).1
def a2 : State := (run (ctx 1000) alice (us 3) (ask 3 30) a1).1
def a3 : State := (run (ctx 1000) alice (us 3) (ask 2 40) a2).1
def a4 : State := (run (ctx 1000) alice (us 3) (.setAsk .fixedPrice free 4 ⟨NATIVE, 20⟩ none none none (2000 * NSs)) a3).1
theorem ra1 : Reach P self a1 := next r3 (by decide +kernel) rfl (by decide)
theorem ra2 : Reach P self a2 := next ra1 (by decide +kernel) rfl (by decide)
theorem ra3 : Reach P self a3 := next ra2 (by decide +kernel) rfl (by decide)
theorem ra4 : Reach P self a4 := next ra3 (by decide +kernel) rfl (by decide)
end Sample

/-- The listing of token 0 is not returned, on any page. -/
theorem C57_violated : ¬ C57_statement := by
  intro h
  obtain ⟨all, h1, _, _, h4⟩ := h Sample.P Sample.self Sample.a1 Sample.ra1 Sample.coll none none
  obtain ⟨a, ha⟩ : ∃ a, Sample.a1.asks.get? (Sample.coll, 0) = some a ∧ a.tokenId = 0 ∧ a.collection = Sample.coll ∧
      a.isActive = true := by
    refine ⟨(Sample.a1.asks.get? (Sample.coll, 0)).getD ⟨.auction, [], 0, [], 0, none, none, none, 0, false⟩, ?_⟩
    decide +kernel
  have h2 : a ∈ all := (h1 a).mpr ⟨⟨⟨_, ha.1⟩, ha.2.2.1, Or.inr ha.2.2.2⟩, by intro o ho; cases ho⟩
  obtain ⟨n, hn⟩ : ∃ n, a ∈ all.take (n * pageSize none) := by
    refine ⟨all.length, ?_⟩
    rw [List.take_of_length_le]
    · exact h2
    · show all.length ≤ all.length * 10
      omega
  rw [← h4] at hn
  obtain ⟨all', h1', _, _, h4'⟩ := C57_partial Sample.ra1 Sample.coll none none none
  rw [h4'] at hn
  have := ((h1' a).mp (List.mem_of_mem_take hn)).1.2
  rw [ha.2.1] at this
  omega

theorem C58_violated : ¬ C58_statement := by
  intro h
  obtain ⟨all, h1, _, _, h4⟩ := h Sample.P Sample.self Sample.a1 Sample.ra1 Sample.coll none none
  obtain ⟨a, ha⟩ : ∃ a, Sample.a1.asks.get? (Sample.coll, 1) = some a ∧ a.collection = Sample.coll ∧
      a.isActive = true := by
    refine ⟨(Sample.a1.asks.get? (Sample.coll, 1)).getD ⟨.auction, [], 0, [], 0, none, none, none, 0, false⟩, ?_⟩
    decide +kernel
  have h2 : a ∈ all := (h1 a).mpr ⟨⟨⟨_, ha.1⟩, ha.2.1, Or.inr ha.2.2⟩, by intro o ho; cases ho⟩
  have h5 := h4 1
  have h6 : pages (reverseQueryAsks Sample.a1 Sample.coll none) Ask.tokenId none 1 none = [] := by
    unfold pages
    rw [(C58_partial Sample.ra1 Sample.coll none none).2]
    rfl
  rw [h6, Eq.comm, List.take_eq_nil_iff] at h5
  rcases h5 with h5 | h5
  · cases h5
  · rw [h5] at h2; cases h2

example : (queryAsks Sample.a3 Sample.coll none none (some 2)).map Ask.tokenId = [1, 2] := by decide +kernel
example : (reverseQueryAsks Sample.a3 Sample.coll none (some 3) (some 2)).map Ask.tokenId = [2, 1] := by decide +kernel

/-! ### C59: orders sorted by price -/

/-- Asks, bids and collection bids of a collection sorted by price, in both directions: sorted, complete, without
duplicates, from the beginning or after any offset. -/
theorem C59_price_sorted {s : State} (hr : Reach p me s) (c : Addr) (limit : Option Nat) :
    (∀ (incl : Option Bool) (start : Option (Nat × Nat)),
      Paged (fun a b => priceTok (askOffset a) (askOffset b)) (fun o a => priceTok o (askOffset a)) askOffset
        (AskOf s c incl) (queryAsksSortedByPrice s c incl) start limit ∧
      Paged (fun a b => priceTok (askOffset b) (askOffset a)) (fun o a => priceTok (askOffset a) o) askOffset
        (AskOf s c incl) (reverseQueryAsksSortedByPrice s c incl) start limit) ∧
    (∀ start : Option (Nat × Nat × Addr),
      Paged (fun a b => priceTokBidder (bidOffset a) (bidOffset b)) (fun o b => priceTokBidder o (bidOffset b)) bidOffset
        (BidOf s c) (queryBidsSortedByPrice s c) start limit ∧
      Paged (fun a b => priceTokBidder (bidOffset b) (bidOffset a)) (fun o b => priceTokBidder (bidOffset b) o) bidOffset
        (BidOf s c) (reverseQueryBidsSortedByPrice s c) start limit) ∧
    (∀ start : Option CBidOffset,
      Paged (fun a b => priceBidder a.price a.bidder b.price b.bidder) (fun o b => priceBidder o.price o.bidder b.price b.bidder)
        cbidOffset (CBidOf s c) (queryCBidsSortedByPrice s c) start limit ∧
      Paged (fun a b => priceBidder b.price b.bidder a.price a.bidder) (fun o b => priceBidder b.price b.bidder o.price o.bidder)
        cbidOffset (CBidOf s c) (reverseQueryCBidsSortedByPrice s c) start limit) := by
  have hw := hr.wf
  have hA : ∀ e ∈ askPrices s c, ((askOffset e.2).1, (c, (askOffset e.2).2)) = e.1 := by
    rintro ⟨k, v⟩ he
    obtain ⟨k', h1, h2, h3⟩ := mem_index.mp he
    have h4 := (hw.asks _ _ h1).key
    have h5 : v.collection = c := by simpa using h2
    rw [← h3, ← h4, h5]; rfl
  have hB : ∀ e ∈ bidPrices s c, ((bidOffset e.2).1, (c, (bidOffset e.2).2)) = e.1 := by
    rintro ⟨k, v⟩ he
    obtain ⟨k', h1, h2, h3⟩ := mem_index.mp he
    have h4 := (hw.bids _ _ h1).key
    have h5 : v.collection = c := by simpa using h2
    rw [← h3, ← h4, h5]; rfl
  have hC : ∀ e ∈ cbidPrices s c, ((cbidOffset e.2).price, (c, (cbidOffset e.2).bidder)) = e.1 := by
    rintro ⟨k, v⟩ he
    obtain ⟨k', h1, h2, h3⟩ := mem_index.mp he
    have h4 := (hw.cbids _ _ h1).key
    have h5 : v.collection = c := by simpa using h2
    rw [← h3, ← h4, h5]; rfl
  have lA : ∀ a b : Nat × Nat, ltK (lexLe natLe askPkLe) (a.1, (c, a.2)) (b.1, (c, b.2)) = true ↔ priceTok a b := by
    intro a b
    rw [ltK_lex natLin, ltK_nat, ltK_ask]
    simp [shortlex_irrefl, priceTok]
  have lB : ∀ a b : Nat × Nat × Addr,
      ltK (lexLe natLe bidPkLe) (a.1, (c, a.2)) (b.1, (c, b.2)) = true ↔ priceTokBidder a b := by
    intro a b
    rw [ltK_lex natLin, ltK_nat, ltK_bid]
    simp [shortlex_irrefl, priceTokBidder]
  have lC : ∀ (x : Nat) (y : Addr) (x' : Nat) (y' : Addr),
      ltK (lexLe natLe cbidPkLe) (x, (c, y)) (x', (c, y')) = true ↔ priceBidder x y x' y' := by
    intro x y x' y'
    rw [ltK_lex natLin, ltK_nat, ltK_cbid]
    simp [shortlex_irrefl, priceBidder]
  refine ⟨fun incl start => ⟨?_, ?_⟩, fun start => ⟨?_, ?_⟩, fun start => ⟨?_, ?_⟩⟩
  · exact paged_of' (desc := false) (mk := fun o : Nat × Nat => (o.1, (c, o.2))) (lexLin natLin askPkLin)
      (index_nodup' Prod.snd (fun _ _ => rfl)) hA (fun _ => rfl) askOf_iff
      (fun a b _ _ h => (lA (askOffset a) (askOffset b)).mp h) (fun o b _ _ => lA o (askOffset b))
  · exact paged_of' (desc := true) (mk := fun o : Nat × Nat => (o.1, (c, o.2))) (lexLin natLin askPkLin)
      (index_nodup' Prod.snd (fun _ _ => rfl)) hA (fun _ => rfl) askOf_iff
      (fun a b _ _ h => (lA (askOffset b) (askOffset a)).mp h) (fun o b _ _ => lA (askOffset b) o)
  · exact paged_of' (desc := false) (mk := fun o : Nat × Nat × Addr => (o.1, (c, o.2))) (lexLin natLin bidPkLin)
      (index_nodup' Prod.snd (fun _ _ => rfl)) hB (fun _ => rfl) sel_iff
      (fun a b _ _ h => (lB (bidOffset a) (bidOffset b)).mp h) (fun o b _ _ => lB o (bidOffset b))
  · exact paged_of' (desc := true) (mk := fun o : Nat × Nat × Addr => (o.1, (c, o.2))) (lexLin natLin bidPkLin)
      (index_nodup' Prod.snd (fun _ _ => rfl)) hB (fun _ => rfl) sel_iff
      (fun a b _ _ h => (lB (bidOffset b) (bidOffset a)).mp h) (fun o b _ _ => lB (bidOffset b) o)
  · exact paged_of' (desc := false) (mk := fun o : CBidOffset => (o.price, (c, o.bidder))) (lexLin natLin cbidPkLin)
      (index_nodup' Prod.snd (fun _ _ => rfl)) hC (fun _ => rfl) sel_iff
      (fun a b _ _ h => (lC a.price a.bidder b.price b.bidder).mp h) (fun o b _ _ => lC o.price o.bidder b.price b.bidder)
  · exact paged_of' (desc := true) (mk := fun o : CBidOffset => (o.price, (c, o.bidder))) (lexLin natLin cbidPkLin)
      (index_nodup' Prod.snd (fun _ _ => rfl)) hC (fun _ => rfl) sel_iff
      (fun a b _ _ h => (lC b.price b.bidder a.price a.bidder).mp h) (fun o b _ _ => lC b.price b.bidder o.price o.bidder)

example : (queryAsksSortedByPrice Sample.a3 Sample.coll none none (some 3)).map askOffset = [(30, 3), (40, 0), (40, 2)] := by
  decide +kernel
example : (queryAsksSortedByPrice Sample.a3 Sample.coll none (some (40, 0)) (some 3)).map askOffset = [(40, 2), (101, 1)] := by
  decide +kernel
example : (reverseQueryAsksSortedByPrice Sample.a3 Sample.coll none (some (40, 2)) none).map askOffset = [(40, 0), (30, 3)] := by
  decide +kernel

end Verif.V1

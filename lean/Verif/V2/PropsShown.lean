/-
Marketplace v2: what the price queries show first is what the next call trades with: C162.
-/
import Verif.V2.PropsSale
import Verif.V2.Entry

namespace Verif.V2
open Verif Spec

namespace Spec
/-- A listing by price that is asked for from its start: in the given order, unbounded, with room for at least one entry. -/
def FromStart (p : Params) (desc : Bool) (o : Option (QOpts (Nat × Bytes))) : Prop :=
  (o.getD {}).descending.getD false = desc ∧ (o.getD {}).min = none ∧ (o.getD {}).max = none ∧ 1 ≤ (o.getD {}).limit.getD p.defLimit

/-- The calls that want any token of a collection: the collection, the limit, and who is to get the token. -/
def WantsAny (s : State) (sender : Addr) : Exec → Option (Addr × Coin × Addr)
  | .setCollectionBid c d => some (c, d.price, d.recipient.getD sender)
  | .buyCollectionNft c d => some (c, d.price, d.recipient.getD sender)
  | .updateCollectionBid id d => (s.cbids.get? id).map fun b => (b.collection, d.price, d.recipient.getD b.creator)
  | _ => none

/-- The calls that offer a token: the collection, the token and the limit. -/
def OffersOne (s : State) : Exec → Option (Addr × Bytes × Coin)
  | .setAsk c t d => some (c, t, d.price)
  | .sellNft c t d => some (c, t, d.price)
  | .updateAsk id d => (s.asks.get? id).map fun a => (a.collection, a.tokenId, d.price)
  | _ => none
end Spec

/-! ### The first entry -/

/-- The first entry that meets a bound is the first entry, if the entries before one that meets the bound meet it too. -/
theorem head_filter {α : Type} {r : α → α → Prop} {q : α → Bool} {l : List α} (hl : l.Pairwise r)
    (hq : ∀ x y, r x y → q y = true → q x = true) : (l.filter q).head? = l.head?.filter q := by
  cases l with
  | nil => rfl
  | cons x l =>
    by_cases hx : q x = true
    · rw [List.filter_cons_of_pos hx, List.head?_cons, List.head?_cons, Option.filter_some, if_pos hx]
    · rw [List.head?_cons, Option.filter_some, if_neg hx, List.filter_cons_of_neg hx, List.head?_eq_none_iff, List.filter_eq_nil_iff]
      intro y hy hqy
      exact hx (hq x y ((List.pairwise_cons.mp hl).1 y hy) hqy)

/-- First entry of a listing that is asked for from its start. -/
theorem runQuery_start {V : Type} {p : Params} (hlim : 1 ≤ p.maxLimit) {es : List ((Nat × Bytes) × V)} {desc : Bool}
    {o : Option (QOpts (Nat × Bytes))} (ho : FromStart p desc o) :
    (runQuery pkLe p.defLimit p.maxLimit es (o.getD {})).head? = ((scan pkLe es desc none none).head?).map Prod.snd := by
  obtain ⟨h1, h2, h3, h4⟩ := ho
  unfold runQuery
  rw [h1, h2, h3]
  have : 1 ≤ Nat.min ((o.getD {}).limit.getD p.defLimit) p.maxLimit := Nat.le_min.mpr ⟨h4, hlim⟩
  generalize Nat.min ((o.getD {}).limit.getD p.defLimit) p.maxLimit = n at this
  cases n with
  | zero => omega
  | succ n => cases scan pkLe es desc none none <;> rfl

theorem scan_head_max {V : Type} (es : List ((Nat × Bytes) × V)) (n : Nat) :
    (scan pkLe es false none (some (.excl (n + 1, [])))).head? =
      (scan pkLe es false none none).head?.filter (fun e => decide (e.1.1 ≤ n)) := by
  have h := scan_sorted (le := pkLe) pkLe_total pkLe_trans es none none
  rw [← head_filter h (fun x y hxy hy => decide_eq_true (Nat.le_trans (pkLe_fst hxy) (of_decide_eq_true hy)))]
  unfold scan
  simp only [Bool.false_eq_true, if_false, List.filter_filter]
  congr 2
  funext e
  rw [Bool.eq_iff_iff]
  simp only [Bool.and_eq_true, okMax_pk_excl, decide_eq_true_eq]
  simp [okMin, okMax]

theorem scan_head_min {V : Type} (es : List ((Nat × Bytes) × V)) (n : Nat) :
    (scan pkLe es true (some (.incl (n, []))) none).head? =
      (scan pkLe es true none none).head?.filter (fun e => decide (n ≤ e.1.1)) := by
  have h := scan_sorted_desc (le := pkLe) pkLe_total pkLe_trans es none none
  rw [← head_filter h (fun x y hxy hy => decide_eq_true (Nat.le_trans (of_decide_eq_true hy) (pkLe_fst hxy)))]
  unfold scan
  simp only [if_true, List.filter_reverse, List.filter_filter]
  congr 3
  funext e
  rw [Bool.eq_iff_iff]
  simp only [Bool.and_eq_true, okMin_pk_incl, decide_eq_true_eq]
  simp [okMin, okMax]

section
variable {p : Params} {me : Addr} {G : State → Prop} (hlim : 1 ≤ p.maxLimit)

theorem filter_map {α β : Type} {o : Option α} {f : α → β} {q : α → Bool} {q' : β → Bool} (h : ∀ x ∈ o, q x = q' (f x)) :
    (o.filter q).map f = (o.map f).filter q' := by
  cases o with
  | none => rfl
  | some x =>
    rw [Option.map_some, Option.filter_some, Option.filter_some, h x rfl]
    by_cases hq : q' (f x) = true
    · rw [if_pos hq, if_pos hq]; rfl
    · rw [if_neg hq, if_neg hq]; rfl

include hlim

/-- The listing that a buyer of any token is matched with is the first one shown, if it is cheap enough. -/
theorem cbidMatch_shown {s : State} {b : CBid} {x : Option Ask} {c : Addr} {o : Option (QOpts (Nat × Bytes))} {l : List Ask}
    (ho : FromStart p false o) (hc : c = b.collection)
    (hq : query p s (.asksByCollectionDenom c b.details.price.denom o) = .ok (.asks l))
    (h : b.matchWithAsk p s = .ok x) : x = l.head?.filter (fun a => decide (a.details.price.amount ≤ b.details.price.amount)) := by
  subst hc
  simp only [query, bind_ok, addrValidate_ok, Except.ok.injEq, Answer.asks.injEq] at hq
  obtain ⟨_, ⟨_, rfl⟩, rfl⟩ := hq
  unfold CBid.matchWithAsk at h
  simp only [bind_ok, u128_ok, Except.ok.injEq] at h
  obtain ⟨n, ⟨_, rfl⟩, rfl⟩ := h
  unfold queryAsksByCollectionDenom
  rw [runQuery_one hlim rfl, runQuery_start hlim ho]
  simp only [Option.getD_some]
  rw [scan_head_max]
  refine filter_map fun e he => ?_
  obtain ⟨id, _, hk, _⟩ := mem_askEntries.mp (mem_scan.mp (List.mem_of_mem_head? he)).1
  rw [hk]

/-- The bid on the token itself that comes into question for a seller is the first one shown, if it is high enough. -/
theorem topBid_shown {s : State} {coll tok : Bytes} {lim : Coin} {o : Option (QOpts (Nat × Bytes))} {l : List Bid}
    (ho : FromStart p true o) (hq : query p s (.bidsByTokenPrice coll tok lim.denom o) = .ok (.bids l)) :
    (queryBidsByTokenPrice p s coll tok lim.denom
      { descending := some true, limit := some 1, min := some (.incl (lim.amount, [])), max := none }).getLast? =
      l.head?.filter (fun b => decide (lim.amount ≤ b.details.price.amount)) := by
  simp only [query, bind_ok, addrValidate_ok, Except.ok.injEq, Answer.bids.injEq] at hq
  obtain ⟨_, ⟨_, rfl⟩, rfl⟩ := hq
  unfold queryBidsByTokenPrice
  rw [runQuery_one hlim rfl, runQuery_start hlim ho]
  simp only [Option.getD_some]
  rw [scan_head_min]
  refine filter_map fun e he => ?_
  obtain ⟨id, _, hk, _⟩ := mem_bidEntries.mp (mem_scan.mp (List.mem_of_mem_head? he)).1
  rw [hk]

/-- The collection bid that comes into question for a seller is the first one shown, if it is high enough. -/
theorem topCBid_shown {s : State} {coll : Bytes} {lim : Coin} {o : Option (QOpts (Nat × Bytes))} {l : List CBid}
    (ho : FromStart p true o) (hq : query p s (.collectionBidsByPrice coll lim.denom o) = .ok (.cbids l)) :
    (queryCollectionBidsByPrice p s coll lim.denom
      { descending := some true, limit := some 1, min := some (.incl (lim.amount, [])), max := none }).getLast? =
      l.head?.filter (fun b => decide (lim.amount ≤ b.details.price.amount)) := by
  simp only [query, bind_ok, addrValidate_ok, Except.ok.injEq, Answer.cbids.injEq] at hq
  obtain ⟨_, ⟨_, rfl⟩, rfl⟩ := hq
  unfold queryCollectionBidsByPrice
  rw [runQuery_one hlim rfl, runQuery_start hlim ho]
  simp only [Option.getD_some]
  rw [scan_head_min]
  refine filter_map fun e he => ?_
  obtain ⟨id, _, hk, _⟩ := mem_cbidEntries.mp (mem_scan.mp (List.mem_of_mem_head? he)).1
  rw [hk]

omit hlim in
theorem sale_nft {ctx : Ctx} {cf : Config} {a : Ask} {mb : MatchingBid} {abb : Bool} (x : SaleParts p ctx a cf mb abb) :
    Msg.nft a.collection a.tokenId mb.recipient ∈ x.msgs := by
  simp [SaleParts.msgs, transferNft]

/-! ### C162 -/

/-- A buyer of any token of a collection gets the listing that the query of listings by price shows first, if that is within the
limit; otherwise nothing is bought. -/
theorem C162_buyer {ctx : Ctx} {sender : Addr} {funds : List Coin} {m : Exec} {s s' : State} {msgs : List Msg}
    {c to : Addr} {lim : Coin} {o : Option (QOpts (Nat × Bytes))} {l : List Ask} (hm : WantsAny s sender m = some (c, lim, to))
    (ho : FromStart p false o) (hq : query p s (.asksByCollectionDenom c lim.denom o) = .ok (.asks l))
    (hx : execute p ctx sender funds m s = .ok (s', msgs)) :
    (∀ a, l.head? = some a → a.details.price.amount ≤ lim.amount →
      s'.asks = s.asks.erase a.id ∧ Msg.nft a.collection a.tokenId to ∈ msgs) ∧
    ((∀ a, l.head? = some a → lim.amount < a.details.price.amount) →
      (∀ d, m ≠ .buyCollectionNft c d) ∧ s'.asks = s.asks ∧ ∀ x y z, Msg.nft x y z ∉ msgs) := by
  have sub : ∀ (y : Msg) (l : List Coin) (ms : List Msg), y ∈ ms → y ∈ refund sender l ms := by
    intro y l ms h; unfold refund; split
    · exact h
    · exact List.mem_append_left _ h
  have none_ : ∀ (l : List Coin) x y z, Msg.nft x y z ∉ refund sender l [] := by
    intro l x y z h; unfold refund at h; split at h
    · cases h
    · simp [transferCoins] at h
  have yes : ∀ {lim : Coin} {x : Option Ask} {a : Ask} {b : Nat}, x = l.head?.filter (fun a => decide (a.details.price.amount ≤ b)) →
      l.head? = some a → a.details.price.amount ≤ b → x = some a := by
    intro _ x a b h1 h2 h3
    rw [h1, h2, Option.filter_some, if_pos (decide_eq_true h3)]
  have no : ∀ {x : Option Ask} {b : Nat}, x = l.head?.filter (fun a => decide (a.details.price.amount ≤ b)) →
      (∀ a, l.head? = some a → b < a.details.price.amount) → x = none := by
    intro x b h1 h2
    rw [h1]
    cases hh : l.head? with
    | none => rfl
    | some a => rw [Option.filter_some, if_neg]; simpa using h2 a hh
  cases execute_eff hx with
  | restCBid coll d fn left hv hd htr hpr hn hmt hl hnew =>
    cases hm
    have := cbidMatch_shown hlim (b := CBid.new p sender c d ctx.height (nextNonce s)) ho rfl hq hmt
    exact ⟨fun a h1 h2 => (by cases yes (lim := d.price) this h1 h2), fun _ => ⟨fun _ h => (by cases h), rfl, none_ _⟩⟩
  | buyCBid m coll d fn left a hm' hv hd htr hpr hn ha hl x =>
    have hw : WantsAny s sender m = some (coll, d.price, d.recipient.getD sender) := by rcases hm' with rfl | rfl <;> rfl
    rw [hw] at hm
    cases hm
    have := cbidMatch_shown hlim (b := CBid.new p sender c d ctx.height (nextNonce s)) ho rfl hq ha
    refine ⟨fun a' h1 h2 => ?_, fun h => (by cases no this h)⟩
    cases yes (lim := d.price) this h1 h2
    exact ⟨rfl, sub _ _ _ (sale_nft x)⟩
  | updCBid id d b fn fa left hd hb hcr hpr hn hadd hmt hl =>
    rw [WantsAny, hb] at hm
    cases hm
    have := cbidMatch_shown hlim (b := { b with details := d }) ho rfl hq hmt
    exact ⟨fun a h1 h2 => (by cases yes (lim := d.price) this h1 h2), fun _ => ⟨fun _ h => (by cases h), rfl, none_ _⟩⟩
  | updCBuy id d b a fn fa left hd hb hcr hpr hn hadd ha hl x =>
    rw [WantsAny, hb] at hm
    cases hm
    have := cbidMatch_shown hlim (b := { b with details := d }) ho rfl hq ha
    refine ⟨fun a' h1 h2 => ?_, fun h => (by cases no this h)⟩
    cases yes (lim := d.price) this h1 h2
    exact ⟨rfl, sub _ _ _ (sale_nft x)⟩
  | sellAsk m coll tok d pay mb hm' => rcases hm' with rfl | rfl <;> cases hm
  | buyBid m coll tok d fn left a hm' => rcases hm' with rfl | rfl <;> cases hm
  | _ => cases hm

/-- A seller sells to the bid on the token or the collection bid that the queries of bids by price show first, whichever is higher and,
if they are equal, the bid on the token; if neither is within the limit, the token is not sold. -/
theorem C162_seller {ctx : Ctx} {sender : Addr} {funds : List Coin} {m : Exec} {s s' : State} {msgs : List Msg}
    {c : Addr} {t : Bytes} {lim : Coin} {o o' : Option (QOpts (Nat × Bytes))} {lb : List Bid} {lc : List CBid}
    (hm : OffersOne s m = some (c, t, lim)) (ho : FromStart p true o) (ho' : FromStart p true o')
    (hb : query p s (.bidsByTokenPrice c t lim.denom o) = .ok (.bids lb))
    (hc : query p s (.collectionBidsByPrice c lim.denom o') = .ok (.cbids lc))
    (hx : execute p ctx sender funds m s = .ok (s', msgs)) :
    (∀ b, lb.head? = some b → lim.amount ≤ b.details.price.amount →
      (∀ x, lc.head? = some x → x.details.price.amount ≤ b.details.price.amount) →
      s'.bids = s.bids.erase b.id ∧ s'.cbids = s.cbids ∧ Msg.nft c t (b.details.recipient.getD b.creator) ∈ msgs) ∧
    (∀ b, lc.head? = some b → lim.amount ≤ b.details.price.amount →
      (∀ x, lb.head? = some x → x.details.price.amount < b.details.price.amount) →
      s'.bids = s.bids ∧ s'.cbids = s.cbids.erase b.id ∧ Msg.nft c t (b.details.recipient.getD b.creator) ∈ msgs) ∧
    ((∀ b, lb.head? = some b → b.details.price.amount < lim.amount) → (∀ b, lc.head? = some b → b.details.price.amount < lim.amount) →
      (∀ d, m ≠ .sellNft c t d) ∧ s'.bids = s.bids ∧ s'.cbids = s.cbids ∧ ∀ x y z, Msg.nft x y z ∈ msgs → z = ctx.self) := by
  have hb' := topBid_shown hlim ho hb
  have hc' := topCBid_shown hlim ho' hc
  -- the matching bid, in terms of what is shown
  have key : ∀ a : Ask, a.collection = c → a.tokenId = t → a.details.price = lim →
      (∀ b, lb.head? = some b → lim.amount ≤ b.details.price.amount →
        (∀ x, lc.head? = some x → x.details.price.amount ≤ b.details.price.amount) → a.matchWithBid p s = some (.bid b)) ∧
      (∀ b, lc.head? = some b → lim.amount ≤ b.details.price.amount →
        (∀ x, lb.head? = some x → x.details.price.amount < b.details.price.amount) → a.matchWithBid p s = some (.cbid b)) ∧
      ((∀ b, lb.head? = some b → b.details.price.amount < lim.amount) →
        (∀ b, lc.head? = some b → b.details.price.amount < lim.amount) → a.matchWithBid p s = none) := by
    rintro a rfl rfl rfl
    unfold Ask.matchWithBid
    simp only [hb', hc']
    refine ⟨fun b h1 h2 h3 => ?_, fun b h1 h2 h3 => ?_, fun h1 h2 => ?_⟩
    · rw [h1, Option.filter_some, if_pos (decide_eq_true h2)]
      cases hh : lc.head? with
      | none => rfl
      | some x =>
        rw [Option.filter_some]
        by_cases hq : a.details.price.amount ≤ x.details.price.amount
        · rw [if_pos (decide_eq_true hq)]; exact if_pos (h3 x hh)
        · rw [if_neg (by simpa using hq)]
    · rw [h1, Option.filter_some, if_pos (decide_eq_true h2)]
      cases hh : lb.head? with
      | none => rfl
      | some x =>
        rw [Option.filter_some]
        by_cases hq : a.details.price.amount ≤ x.details.price.amount
        · rw [if_pos (decide_eq_true hq)]; exact if_neg (Nat.not_le.mpr (h3 x hh))
        · rw [if_neg (by simpa using hq)]
    · have e1 : lb.head?.filter (fun b => decide (a.details.price.amount ≤ b.details.price.amount)) = none := by
        cases hh : lb.head? with
        | none => rfl
        | some x => rw [Option.filter_some, if_neg]; simpa using h1 x hh
      have e2 : lc.head?.filter (fun b => decide (a.details.price.amount ≤ b.details.price.amount)) = none := by
        cases hh : lc.head? with
        | none => rfl
        | some x => rw [Option.filter_some, if_neg]; simpa using h2 x hh
      rw [e1, e2]
  have sold : ∀ (a : Ask) (mb : MatchingBid) (ms : List Msg), a.collection = c → a.tokenId = t → a.details.price = lim →
      a.matchWithBid p s = some mb → s' = afterSale s a mb → Msg.nft c t mb.recipient ∈ msgs →
      (∀ b, lb.head? = some b → lim.amount ≤ b.details.price.amount →
        (∀ x, lc.head? = some x → x.details.price.amount ≤ b.details.price.amount) →
        s'.bids = s.bids.erase b.id ∧ s'.cbids = s.cbids ∧ Msg.nft c t (b.details.recipient.getD b.creator) ∈ msgs) ∧
      (∀ b, lc.head? = some b → lim.amount ≤ b.details.price.amount →
        (∀ x, lb.head? = some x → x.details.price.amount < b.details.price.amount) →
        s'.bids = s.bids ∧ s'.cbids = s.cbids.erase b.id ∧ Msg.nft c t (b.details.recipient.getD b.creator) ∈ msgs) ∧
      ¬ ((∀ b, lb.head? = some b → b.details.price.amount < lim.amount) ∧ (∀ b, lc.head? = some b → b.details.price.amount < lim.amount)) := by
    intro a mb ms h1 h2 h3 hmb hs' hin
    obtain ⟨k1, k2, k3⟩ := key a h1 h2 h3
    refine ⟨fun b g1 g2 g3 => ?_, fun b g1 g2 g3 => ?_, fun g => ?_⟩
    · have := k1 b g1 g2 g3
      rw [hmb] at this
      cases this
      exact ⟨by rw [hs']; rfl, by rw [hs']; rfl, hin⟩
    · have := k2 b g1 g2 g3
      rw [hmb] at this
      cases this
      exact ⟨by rw [hs']; rfl, by rw [hs']; rfl, hin⟩
    · have := k3 g.1 g.2
      rw [hmb] at this
      cases this
  cases execute_eff hx with
  | restAsk coll tok d pay hv hd hown htr hpr hf hpos hfee hmn hnew =>
    cases hm
    obtain ⟨k1, k2, _⟩ := key (Ask.new p sender c t d) rfl rfl rfl
    refine ⟨fun b g1 g2 g3 => ?_, fun b g1 g2 g3 => ?_, fun _ _ => ⟨fun _ h => (by cases h), rfl, rfl, ?_⟩⟩
    · have := k1 b g1 g2 g3; rw [hmn] at this; cases this
    · have := k2 b g1 g2 g3; rw [hmn] at this; cases this
    · intro x y z h
      simp only [List.mem_cons, List.not_mem_nil, or_false, reduceCtorEq, false_or, Msg.nft.injEq] at h
      exact h.2.2
  | sellAsk m coll tok d pay mb hm' hv hd hown htr hpr hf hpos hfee hmb x =>
    have hw : OffersOne s m = some (coll, tok, d.price) := by rcases hm' with rfl | rfl <;> rfl
    rw [hw] at hm
    cases hm
    obtain ⟨h1, h2, h3⟩ := sold (Ask.new p sender c t d) mb [] rfl rfl rfl hmb rfl
      (List.mem_cons_of_mem _ (sale_nft x))
    exact ⟨h1, h2, fun g1 g2 => absurd ⟨g1, g2⟩ h3⟩
  | updAsk id d a hf hd ha hcr hpr hmn =>
    rw [OffersOne, ha] at hm
    cases hm
    obtain ⟨k1, k2, _⟩ := key { a with details := d } rfl rfl rfl
    refine ⟨fun b g1 g2 g3 => ?_, fun b g1 g2 g3 => ?_, fun _ _ => ⟨fun _ h => (by cases h), rfl, rfl, fun x y z h => (by cases h)⟩⟩
    · have := k1 b g1 g2 g3; rw [hmn] at this; cases this
    · have := k2 b g1 g2 g3; rw [hmn] at this; cases this
  | updSell id d a mb hf hd ha hcr hpr hmb x =>
    rw [OffersOne, ha] at hm
    cases hm
    obtain ⟨h1, h2, h3⟩ := sold { a with details := d } mb [] rfl rfl rfl hmb rfl (sale_nft x)
    exact ⟨h1, h2, fun g1 g2 => absurd ⟨g1, g2⟩ h3⟩
  | buyBid m coll tok d fn left a hm' => rcases hm' with rfl | rfl <;> cases hm
  | buyCBid m coll d fn left a hm' => rcases hm' with rfl | rfl <;> cases hm
  | _ => cases hm

end

namespace Sample
/-- the listing at 100 is shown first and bought by bob, who would have paid 150 -/
theorem shown_asks : query P s4 (.asksByCollectionDenom coll ust none) = .ok (.asks [Ask.new P alice coll tok (det 100)]) := rfl
theorem fromStart_asks : FromStart P false none := ⟨rfl, rfl, rfl, by decide⟩
theorem fromStart_bids : FromStart P true (some { descending := some true }) := ⟨rfl, rfl, rfl, by decide⟩
example := (C162_buyer (by decide) (m := .buyCollectionNft coll (det 150)) rfl fromStart_asks shown_asks buyAny_ok).1 _ rfl (by decide)
/-- bob's bid of 80 and carol's collection bid of 90 are shown first; alice sells to carol -/
theorem shown_bids : query P s4 (.bidsByTokenPrice coll tok ust (some { descending := some true })) =
    .ok (.bids [Bid.new P bob coll tok (det' 80 carol) 7 1]) := rfl
theorem shown_cbids : query P s4 (.collectionBidsByPrice coll ust (some { descending := some true })) =
    .ok (.cbids [CBid.new P carol coll (det 90) 7 2]) := rfl
example := (C162_seller (by decide) (m := .updateAsk aid (det 75)) rfl fromStart_bids fromStart_bids shown_bids shown_cbids upd_ok).2.1
  _ rfl (by decide) (fun x h => (by cases h; decide))
end Sample

end Verif.V2

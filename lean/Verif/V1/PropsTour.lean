/-
Marketplace v1: paging through listings while orders come and go (C154).
-/
import Verif.V1.PropsQueryMore
import Verif.Base.Tour

namespace Verif.V1
open Verif Spec

variable {p : Params} {me : Addr}

/-- Full statement for the listing by expiry: a client that pages while the state changes does not see the same bid twice. -/
def C154_statement : Prop :=
  ∀ (p : Params) (me : Addr) (states : List State), (∀ s ∈ states, Reach p me s) → ∀ (x : Addr) (limit : Option Nat),
    (tour (fun s st => queryBidsByBidderSortedByExpiry s x st limit) (fun b => (b.collection, b.tokenId)) states none).Nodup

theorem dict_trans {a b c : Bytes} (h1 : dict a b) (h2 : dict b c) : dict a c := by
  rw [← ltK_bLe] at *
  exact ltK_trans bytesLin.trans h1 h2

theorem priceTok_trans (a b c : Nat × Nat) (h1 : priceTok a b) (h2 : priceTok b c) : priceTok a c := by
  unfold priceTok at *; omega

theorem priceTokBidder_trans (a b c : Nat × Nat × Addr) (h1 : priceTokBidder a b) (h2 : priceTokBidder b c) : priceTokBidder a c := by
  unfold priceTokBidder at *
  rcases h1 with h1 | ⟨e1, h1 | ⟨f1, h1⟩⟩ <;> rcases h2 with h2 | ⟨e2, h2 | ⟨f2, h2⟩⟩
  · exact .inl (by omega)
  · exact .inl (by omega)
  · exact .inl (by omega)
  · exact .inl (by omega)
  · exact .inr ⟨by omega, .inl (by omega)⟩
  · exact .inr ⟨by omega, .inl (by omega)⟩
  · exact .inl (by omega)
  · exact .inr ⟨by omega, .inl (by omega)⟩
  · exact .inr ⟨by omega, .inr ⟨f1.trans f2, dict_trans h1 h2⟩⟩

theorem priceBidder_trans {p q r : Nat} {x y z : Addr} (h1 : priceBidder p x q y) (h2 : priceBidder q y r z) : priceBidder p x r z := by
  unfold priceBidder at *
  rcases h1 with h1 | ⟨e1, h1⟩ <;> rcases h2 with h2 | ⟨e2, h2⟩
  · exact .inl (by omega)
  · exact .inl (by omega)
  · exact .inl (by omega)
  · exact .inr ⟨by omega, dict_trans h1 h2⟩

theorem collTok_trans (a b c : Addr × Nat) (h1 : collTok a b) (h2 : collTok b c) : collTok a c := by
  unfold collTok at *
  rcases h1 with h1 | ⟨e1, h1⟩ <;> rcases h2 with h2 | ⟨e2, h2⟩
  · exact .inl (shortlex_trans h1 h2)
  · exact .inl (e2 ▸ h1)
  · exact .inl (e1 ▸ h2)
  · exact .inr ⟨e1.trans e2, by omega⟩

/-- What holds: asks, bids and collection bids of a collection sorted by price, in both directions. -/
theorem C154_partial_price {states : List State} (hr : ∀ s ∈ states, Reach p me s) (c : Addr) (limit : Option Nat) :
    (∀ (incl : Option Bool) (start : Option (Nat × Nat)),
      Toured priceTok askOffset (fun s => AskOf s c incl) (pageSize limit) (fun s st => queryAsksSortedByPrice s c incl st limit) states start ∧
      Toured (fun a b => priceTok b a) askOffset (fun s => AskOf s c incl) (pageSize limit)
        (fun s st => reverseQueryAsksSortedByPrice s c incl st limit) states start) ∧
    (∀ start : Option (Nat × Nat × Addr),
      Toured priceTokBidder bidOffset (fun s => BidOf s c) (pageSize limit) (fun s st => queryBidsSortedByPrice s c st limit) states start ∧
      Toured (fun a b => priceTokBidder b a) bidOffset (fun s => BidOf s c) (pageSize limit)
        (fun s st => reverseQueryBidsSortedByPrice s c st limit) states start) ∧
    (∀ start : Option CBidOffset,
      Toured (fun a b => priceBidder a.price a.bidder b.price b.bidder) cbidOffset (fun s => CBidOf s c) (pageSize limit)
        (fun s st => queryCBidsSortedByPrice s c st limit) states start ∧
      Toured (fun a b => priceBidder b.price b.bidder a.price a.bidder) cbidOffset (fun s => CBidOf s c) (pageSize limit)
        (fun s st => reverseQueryCBidsSortedByPrice s c st limit) states start) := by
  refine ⟨fun incl start => ⟨?_, ?_⟩, fun start => ⟨?_, ?_⟩, fun start => ⟨?_, ?_⟩⟩
  · exact toured priceTok_trans (fun s hs st => ((C59_price_sorted (hr s hs) c limit).1 incl st).1.page)
  · refine toured ?_ ?_
    · exact fun a b c h1 h2 => priceTok_trans _ _ _ h2 h1
    · exact (fun s hs st => ((C59_price_sorted (hr s hs) c limit).1 incl st).2.page (lt := fun a b => priceTok b a))
  · exact toured priceTokBidder_trans (fun s hs st => ((C59_price_sorted (hr s hs) c limit).2.1 st).1.page)
  · refine toured ?_ ?_
    · exact fun a b c h1 h2 => priceTokBidder_trans _ _ _ h2 h1
    · exact (fun s hs st => ((C59_price_sorted (hr s hs) c limit).2.1 st).2.page (lt := fun a b => priceTokBidder b a))
  · refine toured ?_ ?_
    · exact fun _ _ _ h1 h2 => priceBidder_trans h1 h2
    · exact (fun s hs st => ((C59_price_sorted (hr s hs) c limit).2.2 st).1.page
        (lt := fun a b : CBidOffset => priceBidder a.price a.bidder b.price b.bidder))
  · refine toured ?_ ?_
    · exact fun _ _ _ h1 h2 => priceBidder_trans h2 h1
    · exact (fun s hs st => ((C59_price_sorted (hr s hs) c limit).2.2 st).2.page
        (lt := fun a b : CBidOffset => priceBidder b.price b.bidder a.price a.bidder))

/-- What holds: asks of a seller and bids of a bidder by token, collection bids of a bidder by collection, and the asks of a collection on
tokens above 0 (see C57) by token. Repricing does not move them. -/
theorem C154_partial_keys {states : List State} (hr : ∀ s ∈ states, Reach p me s) (x : Addr) (limit : Option Nat) :
    (∀ (incl : Option Bool) (start : Option (Addr × Nat)),
      Toured collTok (fun a => (a.collection, a.tokenId)) (fun s => AskBy s x incl) (pageSize limit)
        (fun s st => queryAsksBySeller s x incl st limit) states start) ∧
    (∀ start : Option (Addr × Nat),
      Toured collTok (fun b => (b.collection, b.tokenId)) (fun s => BidBy s x) (pageSize limit)
        (fun s st => queryBidsByBidder s x st limit) states start) ∧
    (∀ (start : Option (Addr × Nat)) (tok : Nat),
      Toured (fun a b => shortlex a.1 b.1) (fun b => (b.collection, tok)) (fun s => CBidBy s x) (pageSize limit)
        (fun s st => queryCBidsByBidder s x st limit) states start) ∧
    (∀ (incl : Option Bool) (start : Option Nat),
      Toured (· < ·) Ask.tokenId (fun s a => AskOf s x incl a ∧ 0 < a.tokenId) (pageSize limit)
        (fun s st => queryAsks s x incl st limit) states start) := by
  refine ⟨fun incl start => ?_, fun start => ?_, fun start tok => ?_, fun incl start => ?_⟩
  · exact toured collTok_trans (fun s hs st => ((C69_by_account (hr s hs) x limit).1 incl st).page (lt := collTok))
  · exact toured collTok_trans (fun s hs st => ((C69_by_account (hr s hs) x limit).2.1 st).page (lt := collTok))
  · refine toured ?_ ?_
    · exact fun _ _ _ h1 h2 => shortlex_trans h1 h2
    · exact (fun s hs st => ((C69_by_account (hr s hs) x limit).2.2 st tok).page (lt := fun a b : Addr × Nat => shortlex a.1 b.1))
  · refine toured ?_ ?_
    · exact fun _ _ _ h1 h2 => Nat.lt_trans h1 h2
    · exact (fun s hs st => (C57_partial (hr s hs) x incl st limit).page (lt := (· < ·)))

theorem Sample.rb3 : Reach Sample.P Sample.self Sample.b3 := next rb2 (by decide +kernel) rfl (by decide)

/-- The bids of an account by expiry, one at a time: after the last one shown has been withdrawn, the listing starts over. -/
theorem C154_violated : ¬ C154_statement := by
  intro h
  have := h Sample.P Sample.self [Sample.b2, Sample.b2, Sample.b3] (by
    intro s hs
    simp only [List.mem_cons, List.not_mem_nil, or_false] at hs
    rcases hs with rfl | rfl | rfl
    · exact Sample.rb2
    · exact Sample.rb2
    · exact Sample.rb3) Sample.bob (some 1)
  revert this
  decide +kernel

/-- A client that looks at the asks from the cheapest up, two at a time, while more are placed. -/
example := (C154_partial_price (states := [Sample.a2, Sample.a3]) (by
  intro s hs
  simp only [List.mem_cons, List.not_mem_nil, or_false] at hs
  rcases hs with rfl | rfl
  · exact Sample.ra2
  · exact Sample.ra3) Sample.coll (some 2)).1 none none
example : (tour (fun s st => queryAsksSortedByPrice s Sample.coll none st (some 2)) askOffset [Sample.a2, Sample.a3] none).map askOffset =
    [(30, 3), (40, 0), (40, 2), (101, 1)] := by decide +kernel

end Verif.V1

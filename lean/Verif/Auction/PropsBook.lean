/-
Reserve auction: what creating an auction and the hooks of the chain record (C81, C82).
-/
import Verif.Auction.PropsFunds

namespace Verif.Auction
open Verif Spec

section
variable {p : Params} {me : Addr}

/-! ### C81 creating an auction -/

/-- An auction can be created only by the owner of the token (as far as the collection tells), once the contract is
approved and trading has started, if there is none for the token, with a duration within the bounds and a reserve
price of at least the minimum of an accepted denom. It is recorded as requested, for the caller, without bid or end
time. Nothing else in the store changes. -/
theorem C81_create (hl : LibOk p.lib) {s s' : State} {ctx : Ctx} {sender : Addr} {funds : List Coin} {coll tok : Bytes} {r : Coin}
    {d : Nat} {rec : Option Bytes} {msgs : List Msg}
    (h : execute p ctx sender funds (.create coll tok r d rec) s = .ok (s', msgs)) :
    (∀ o, ctx.q.ownerOf coll tok = some o → o = sender) ∧ ctx.q.approval coll tok = true ∧
    (∀ i t, ctx.q.collInfo coll = some i → i.start = some t → t ≤ ctx.time) ∧
    s.auctions.get? (coll, tok) = none ∧ s.config.minDuration ≤ d ∧ d ≤ s.config.maxDuration ∧
    (∃ m, s.minReserve.get? r.denom = some m ∧ m ≤ r.amount) ∧
    (∀ a, rec = some a → p.valid a = true) ∧ p.valid coll = true ∧
    s'.auctions.get? (coll, tok) = some {
      collection := coll, tokenId := tok, seller := sender, reserve := r, duration := d, recipient := rec
      endTime := none, highBid := none, firstBid := none } ∧
    (∀ k, k ≠ (coll, tok) → s'.auctions.get? k = s.auctions.get? k) ∧ s' = { s with auctions := s'.auctions } := by
  cases execute_eff h with
  | create _ _ _ _ _ min hv hrec hown happ hno htr hmin hres hdur hfee =>
    refine ⟨hl.owner _ _ _ _ hown, hl.approved _ _ _ happ, hl.tradable _ _ htr, hno, hdur.1, hdur.2, ⟨min, hmin, hres⟩, hrec, hv,
      AMap.get?_insert_self _ _ _, ?_, rfl⟩
    intro k hk
    show (s.auctions.insert _ _).get? k = _
    rw [AMap.get?_insert]; exact if_neg (fun e => hk e.symm)

example := C81_create Sample.libOk (Sample.run_eq (c := Sample.ctx 1000000 (some Sample.alice)) (sender := Sample.alice)
  (funds := [⟨Sample.ust, 5⟩]) (m := .create Sample.coll Sample.tok ⟨Sample.ust, 100⟩ 60 (some Sample.carol)) (s := Sample.s1) (by decide +kernel))

/-! ### C82 the hooks of the chain -/

/-- `UpdateParams` sets exactly the given parameters. -/
theorem C82_params {s s' : State} {ctx : Ctx} {u : Update} {msgs : List Msg} (h : sudo p ctx (.updateParams u) s = .ok (s', msgs)) :
    msgs = [] ∧ s' = { s with config := s'.config } ∧ (∀ a, u.fairBurn = some a → p.valid a = true) ∧
    s'.config.fairBurn = u.fairBurn.getD s.config.fairBurn ∧ s'.config.tradingFee = u.tradingFee.getD s.config.tradingFee ∧
    s'.config.minBidIncrement = u.minBidIncrement.getD s.config.minBidIncrement ∧
    s'.config.minDuration = u.minDuration.getD s.config.minDuration ∧ s'.config.maxDuration = s.config.maxDuration ∧
    s'.config.extendDuration = u.extendDuration.getD s.config.extendDuration ∧
    s'.config.createFee = u.createFee.getD s.config.createFee ∧ s'.config.maxSettle = u.maxSettle.getD s.config.maxSettle ∧
    s'.config.haltThreshold = u.haltThreshold.getD s.config.haltThreshold ∧
    s'.config.haltBuffer = u.haltBuffer.getD s.config.haltBuffer ∧
    s'.config.haltPostpone = u.haltPostpone.getD s.config.haltPostpone := by
  simp only [sudo, updateParams, bind_ok] at h
  obtain ⟨fb, hfb, _, hc, h⟩ := h
  have hf : (∀ a, u.fairBurn = some a → p.valid a = true) ∧ fb = u.fairBurn.getD s.config.fairBurn := by
    cases hu : u.fairBurn with
    | none => rw [hu] at hfb; cases hfb; exact ⟨by simp, rfl⟩
    | some a =>
      rw [hu] at hfb
      simp only [addrValidate_ok] at hfb
      exact ⟨fun b hb => by cases hb; exact hfb.1, hfb.2.symm ▸ rfl⟩
  obtain ⟨h1, rfl⟩ := hf
  cases h
  exact ⟨rfl, rfl, h1, rfl, rfl, rfl, rfl, rfl, rfl, rfl, rfl, rfl, rfl, rfl⟩

theorem setMinReserve_eff : ∀ {cs : List Coin} {m m' : AMap Denom Nat}, setMinReserve cs m = .ok m' →
    (cs.map Coin.denom).Nodup ∧ (∀ c ∈ cs, m.get? c.denom = none ∧ m'.get? c.denom = some c.amount) ∧
    ∀ d, d ∉ cs.map Coin.denom → m'.get? d = m.get? d
  | [], m, m', h => by cases h; simp
  | c :: cs, m, m', h => by
    simp only [setMinReserve, bind_ok, ensure_ok] at h
    obtain ⟨_, hn, h⟩ := h
    obtain ⟨h1, h2, h3⟩ := setMinReserve_eff h
    have hc : c.denom ∉ cs.map Coin.denom := by
      intro hm
      obtain ⟨x, hx, he⟩ := List.mem_map.mp hm
      have := (h2 x hx).1
      rw [he, AMap.get?_insert_self] at this
      cases this
    refine ⟨?_, ?_, ?_⟩
    · rw [List.map_cons, List.nodup_cons]; exact ⟨hc, h1⟩
    · intro x hx
      rcases List.mem_cons.mp hx with rfl | hx
      · exact ⟨hn, by rw [h3 _ hc, AMap.get?_insert_self]⟩
      · obtain ⟨y1, y2⟩ := h2 x hx
        refine ⟨?_, y2⟩
        rw [AMap.get?_insert] at y1
        split at y1
        · cases y1
        · exact y1
    · intro d hd
      rw [List.map_cons, List.mem_cons, not_or] at hd
      rw [h3 d hd.2, AMap.get?_insert]
      exact if_neg (fun e => hd.1 e.symm)

theorem unsetMinReserve_eff : ∀ {ds : List Denom} {m m' : AMap Denom Nat}, unsetMinReserve ds m = .ok m' →
    ds.Nodup ∧ (∀ d ∈ ds, m.get? d ≠ none ∧ m'.get? d = none) ∧ ∀ d, d ∉ ds → m'.get? d = m.get? d
  | [], m, m', h => by cases h; simp
  | c :: cs, m, m', h => by
    simp only [unsetMinReserve, bind_ok, ensure_ok] at h
    obtain ⟨_, hn, h⟩ := h
    obtain ⟨h1, h2, h3⟩ := unsetMinReserve_eff h
    have hc : c ∉ cs := by
      intro hm
      exact (h2 c hm).1 (AMap.get?_erase_self _ _)
    refine ⟨?_, ?_, ?_⟩
    · rw [List.nodup_cons]; exact ⟨hc, h1⟩
    · intro x hx
      rcases List.mem_cons.mp hx with rfl | hx
      · refine ⟨?_, by rw [h3 _ hc, AMap.get?_erase_self]⟩
        intro e; rw [e] at hn; cases hn
      · obtain ⟨y1, y2⟩ := h2 x hx
        refine ⟨?_, y2⟩
        rw [AMap.get?_erase] at y1
        split at y1
        · exact absurd rfl y1
        · exact y1
    · intro d hd
      rw [List.mem_cons, not_or] at hd
      rw [h3 d hd.2, AMap.get?_erase]
      exact if_neg (fun e => hd.1 e.symm)

/-- `SetMinReservePrices` adds exactly the given minimum prices; it refuses to overwrite one. -/
theorem C82_set_min {s s' : State} {ctx : Ctx} {cs : List Coin} {msgs : List Msg}
    (h : sudo p ctx (.setMinReserve cs) s = .ok (s', msgs)) :
    msgs = [] ∧ s' = { s with minReserve := s'.minReserve } ∧ (cs.map Coin.denom).Nodup ∧
    (∀ c ∈ cs, s.minReserve.get? c.denom = none ∧ s'.minReserve.get? c.denom = some c.amount) ∧
    ∀ d, d ∉ cs.map Coin.denom → s'.minReserve.get? d = s.minReserve.get? d := by
  cases sudo_eff h with
  | setMin _ m hm =>
    obtain ⟨h1, h2, h3⟩ := setMinReserve_eff hm
    exact ⟨rfl, rfl, h1, h2, h3⟩

/-- `UnsetMinReservePrices` removes exactly the given ones, which must exist. -/
theorem C82_unset_min {s s' : State} {ctx : Ctx} {ds : List Denom} {msgs : List Msg}
    (h : sudo p ctx (.unsetMinReserve ds) s = .ok (s', msgs)) :
    msgs = [] ∧ s' = { s with minReserve := s'.minReserve } ∧ ds.Nodup ∧
    (∀ d ∈ ds, s.minReserve.get? d ≠ none ∧ s'.minReserve.get? d = none) ∧
    ∀ d, d ∉ ds → s'.minReserve.get? d = s.minReserve.get? d := by
  cases sudo_eff h with
  | unsetMin _ m hm =>
    obtain ⟨h1, h2, h3⟩ := unsetMinReserve_eff hm
    exact ⟨rfl, rfl, h1, h2, h3⟩

/-- A fresh deployment has the given configuration and minimum prices and nothing else. -/
theorem C82_init {c : Config} {mins : List Coin} {s : State} (h : instantiate p c mins = .ok s) :
    s.config = c ∧ p.valid c.fairBurn = true ∧ (mins.map Coin.denom).Nodup ∧ (∀ x ∈ mins, s.minReserve.get? x.denom = some x.amount) ∧
    (∀ d, d ∉ mins.map Coin.denom → s.minReserve.get? d = none) ∧ (∀ k, s.auctions.get? k = none) ∧ s.windows = [] ∧
    s.prevBlock = 0 := by
  simp only [instantiate, bind_ok, addrValidate_ok] at h
  obtain ⟨_, ⟨hv, _⟩, _, _, m, hm, h⟩ := h
  obtain ⟨h1, h2, h3⟩ := setMinReserve_eff hm
  cases h
  exact ⟨rfl, hv, h1, fun x hx => (h2 x hx).2, fun d hd => by rw [h3 d hd]; rfl, fun k => rfl, rfl, rfl⟩

/-- Calls change nothing but auctions; the begin-block hook nothing but the record of blocks and halts; the end-block
hook nothing but auctions and halts. -/
theorem C82_only {s s' : State} {msgs : List Msg} :
    (∀ ctx sender funds m, execute p ctx sender funds m s = .ok (s', msgs) → s' = { s with auctions := s'.auctions }) ∧
    (∀ ctx, sudo p ctx .beginBlock s = .ok (s', msgs) → s' = { s with windows := s'.windows, prevBlock := s'.prevBlock }) ∧
    (∀ ctx, sudo p ctx .endBlock s = .ok (s', msgs) → s' = { s with auctions := s'.auctions, windows := s'.windows }) := by
  refine ⟨?_, ?_, ?_⟩
  · intro ctx sender funds m h
    cases execute_eff h with
    | settle _ _ a _ _ hv hf ha hs =>
      obtain ⟨f1, f2, f3, f4, _⟩ := hs.frame
      cases s'; simp only at f1 f2 f3 f4; subst f1 f2 f3 f4; rfl
    | _ => rfl
  · intro ctx h
    cases sudo_eff h with
    | begin => rfl
  · intro ctx h
    cases sudo_eff h with
    | stop earliest s1 _ h1 h2 hb =>
      obtain ⟨f1, f2, f3, f4, _⟩ := hb.frame
      show State.mk _ _ _ _ _ = State.mk _ _ _ _ _
      rw [f1, f2, f3]

example := C82_params (Sample.srun_eq (c := Sample.ctx 1000000) (m := .updateParams { tradingFee := some 7, fairBurn := some Sample.carol })
  (s := Sample.s4) (by decide +kernel))
example := C82_set_min (Sample.srun_eq (c := Sample.ctx 1000000) (m := .setMinReserve [⟨[118], 3⟩, ⟨[119], 4⟩]) (s := Sample.s4) (by decide +kernel))
example := C82_unset_min (Sample.srun_eq (c := Sample.ctx 1000000) (m := .unsetMinReserve [Sample.ust]) (s := Sample.s4) (by decide +kernel))
example := C82_init Sample.init0
example := C82_only.1 _ _ _ _ (Sample.run_eq (c := Sample.ctx 1080000) (sender := Sample.bob) (funds := []) (m := .settle Sample.coll Sample.tok)
  (s := Sample.s4) (by decide +kernel))
example := C82_only.2.2 _ (Sample.srun_eq (c := Sample.ctx 1080000) (m := .endBlock) (s := Sample.s4) (by decide +kernel))

end
end Verif.Auction

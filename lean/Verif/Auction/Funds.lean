/- Conservation of funds, custody, and running payments. Helper file, no properties. -/
import Verif.Auction.Inv

namespace Verif.Auction
open Verif Spec

variable {p : Params} {me : Addr} {honest : Addr → Prop}

theorem outflow_eq (d : Denom) : ∀ ms : List Msg, outflow d ms = paidOut d ms
  | [] => rfl
  | m :: ms => by
    rw [outflow_cons, outflow_eq d ms]
    cases m <;> simp [Msg.out, paidOut]

/-! ### Escrow -/

/-- The part of denom `d` in a standing bid. -/
def bidIn (d : Denom) (a : Auction) : Nat :=
  match a.highBid with
  | some h => h.coin.inDenom d
  | none => 0

def escrow (s : State) (d : Denom) : Nat := s.auctions.sum (bidIn d)

theorem escrow_eq (s : State) (d : Denom) : escrow s d = amountOf d (highBids s) := by
  unfold escrow highBids AMap.sum
  generalize s.auctions.vals = l
  induction l with
  | nil => rfl
  | cons a l ih =>
    rw [List.map_cons, List.sum_cons, List.flatMap_cons, amountOf_append, ih]
    congr 1
    unfold bidIn
    cases a.highBid <;> simp [amountOf]

theorem Settled.cons {ctx : Ctx} {a : Auction} {c : Config} {ws : List HaltWindow} {s s' : State} {ms : List Msg} (hl : LibOk p.lib)
    (h : Settled p ctx a c ws s s' ms) (ha : s.auctions.get? a.key = some a) (d : Denom) :
    paidOut d ms + escrow s' d = escrow s d := by
  cases h with
  | postponed e e' he hle hin hov he' =>
    have := AMap.sum_insert_old (v := { a with endTime := some e' }) (bidIn d) ha
    have h2 : bidIn d { a with endTime := some e' } = bidIn d a := rfl
    simp only [escrow, paidOut]
    omega
  | sold e h roy pay he hle hout hh hroy hpay =>
    have h1 := AMap.sum_erase_of_get? (bidIn d) ha
    have h2 := hl.exact _ _ _ _ _ _ hpay d
    have h3 : bidIn d a = h.coin.inDenom d := by unfold bidIn; rw [hh]
    rw [amountOf_singleton] at h2
    rw [paidOut_append]
    simp only [escrow, paidOut]
    omega

theorem Batch.cons_funds {ctx : Ctx} {c : Config} {ws : List HaltWindow} {as : List Auction} {s s' : State} {ms : List Msg}
    (hl : LibOk p.lib) (h : Batch p ctx c ws as s s' ms) (d : Denom) :
    Stored s as → paidOut d ms + escrow s' d = escrow s d := by
  induction h with
  | nil => intro _; simp [paidOut]
  | cons h1 _ ih =>
    intro hst
    have a1 := h1.cons hl (hst.1 _ List.mem_cons_self) d
    have a2 := ih (hst.tail h1)
    rw [paidOut_append]; omega

theorem hasCoins_le {funds : List Coin} {c : Coin} (h : hasCoins funds c = true) (d : Denom) :
    amountOf d [c] ≤ amountOf d funds := by
  unfold hasCoins at h
  split at h
  case h_2 => cases h
  case h_1 x hx =>
    simp only [decide_eq_true_eq] at h
    have h1 : x ∈ funds := List.mem_of_find?_eq_some hx
    have h2 : x.denom = c.denom := by simpa using List.find?_some hx
    have h3 : ∀ l : List Coin, x ∈ l → x.inDenom d ≤ amountOf d l := by
      intro l
      induction l with
      | nil => intro h; cases h
      | cons y l ih =>
        intro h
        rw [amountOf]
        rcases List.mem_cons.mp h with rfl | h
        · omega
        · have := ih h; omega
    have h4 := h3 _ h1
    rw [amountOf_singleton]
    unfold Coin.inDenom at *
    rw [h2] at h4
    split
    case isTrue e => rw [if_pos e] at h4; omega
    · omega

/-- Attached funds that stay in the contract without belonging to a bid. -/
def kept (s : State) (funds : List Coin) (m : Exec) (d : Denom) : Nat :=
  match m with
  | .create _ _ _ _ _ => amountOf d funds - (if s.config.createFee.amount = 0 then 0 else s.config.createFee.inDenom d)
  | _ => 0

theorem conservation {ctx : Ctx} {sender : Addr} {funds : List Coin} {m : Exec} {s s' : State} {msgs : List Msg}
    (hl : LibOk p.lib) (hw : WF p me s) (e : Eff p ctx sender funds s m s' msgs) (d : Denom) :
    paidOut d msgs + escrow s' d + kept s funds m d = amountOf d funds + escrow s d := by
  have key : ∀ {k : Key} {a : Auction}, s.auctions.get? k = some a → s.auctions.get? a.key = some a := by
    intro k a h; rw [(hw.auctions _ _ h).key]; exact h
  cases e with
  | create coll tok r dur rec min hv hrec hown happ hno htr hmin hres hdur hfee =>
    have := AMap.sum_insert_new (v := (⟨coll, tok, sender, r, dur, none, rec, none, none⟩ : Auction)) (bidIn d) hno
    have h2 : bidIn d (⟨coll, tok, sender, r, dur, none, rec, none, none⟩ : Auction) = 0 := rfl
    simp only [escrow, paidOut_append, paidOut, kept, feeMsgs]
    split at hfee
    case isTrue hz => simp only [hz, if_true, paidOut, hfee, amountOf]; omega
    case isFalse hz =>
      have h3 := hasCoins_le hfee d
      rw [amountOf_singleton] at h3
      simp only [hz, if_false, paidOut, amountOf_singleton]; omega
  | reserve coll tok r a min hv hf ha hs hb =>
    have := AMap.sum_insert_old (v := { a with reserve := r }) (bidIn d) (key ha)
    have h2 : bidIn d { a with reserve := r } = bidIn d a := rfl
    simp only [escrow, paidOut, kept, hf, amountOf]; omega
  | cancel coll tok a hv hf ha hs hb =>
    have h1 := AMap.sum_erase_of_get? (bidIn d) (key ha)
    have hg := hw.auctions _ _ ha
    have h2 : bidIn d a = 0 := by unfold bidIn; rw [hg.high.mpr (hg.first.mp hb)]
    simp only [escrow, paidOut, kept, hf, amountOf]; omega
  | bid1 coll tok a n m e hv ha hs hfunds hpos hm hge hend hb hov he =>
    have h1 := AMap.sum_insert_old (v := { a with
      firstBid := some ctx.time, endTime := some e, highBid := some ⟨⟨a.reserve.denom, n⟩, sender⟩ }) (bidIn d) (key ha)
    have hg := hw.auctions _ _ ha
    have h2 : bidIn d a = 0 := by unfold bidIn; rw [hg.high.mpr (hg.first.mp hb)]
    have h3 : bidIn d { a with firstBid := some ctx.time, endTime := some e, highBid := some ⟨⟨a.reserve.denom, n⟩, sender⟩ } =
      Coin.inDenom ⟨a.reserve.denom, n⟩ d := rfl
    simp only [escrow, paidOut, kept, hfunds, amountOf_singleton]; omega
  | bid2 coll tok a n m f e e' h hv ha hs hfunds hpos hm hge hend hb hh hz he he' =>
    have h1 := AMap.sum_insert_old (v := { a with
      firstBid := some f, endTime := some e', highBid := some ⟨⟨a.reserve.denom, n⟩, sender⟩ }) (bidIn d) (key ha)
    have h2 : bidIn d a = h.coin.inDenom d := by unfold bidIn; rw [hh]
    have h3 : bidIn d { a with firstBid := some f, endTime := some e', highBid := some ⟨⟨a.reserve.denom, n⟩, sender⟩ } =
      Coin.inDenom ⟨a.reserve.denom, n⟩ d := rfl
    simp only [escrow, paidOut, kept, hfunds, amountOf_singleton]; omega
  | settle coll tok a _ _ hv hf ha hset =>
    have := hset.cons hl (key ha) d
    simp only [kept, hf, amountOf]; omega

theorem sudo_conservation {ctx : Ctx} {m : Sudo} {s s' : State} {msgs : List Msg} (hl : LibOk p.lib) (hw : WF p me s)
    (e : SEff p ctx s m s' msgs) (d : Denom) : paidOut d msgs + escrow s' d = escrow s d := by
  cases e with
  | stop earliest s1 _ _ _ hb => exact hb.cons_funds hl d (due_stored hw)
  | begin => simp [paidOut, escrow]
  | params => simp [paidOut, escrow]
  | setMin => simp [paidOut, escrow]
  | unsetMin => simp [paidOut, escrow]

/-! ### Runs -/

theorem Spec.Run.step {a b : World State × List Msg} (h : Run p me honest a) (hs : (sys p me honest).Step a b) :
    Run p me honest b := by
  obtain ⟨c, mins, w0, hi, hst⟩ := h
  exact ⟨c, mins, w0, hi, .tail hst hs⟩

theorem Spec.Run.reach {x : World State × List Msg} (h : Run p me honest x) : Reach p me x.1.st := by
  obtain ⟨c, mins, w0, hi, hs⟩ := h
  refine Sys.Steps.inv (P := fun y => Reach p me y.1.st) ?_ hs ⟨c, mins, _, hi, .refl _⟩
  intro a b ha hab
  refine Sys.state_inv_step (S := sys p me honest) (I := Reach p me) ?_ ?_ ha hab
  · intro ctx sender funds m s s' msgs h1 h2 h3 h4
    exact h3.step (.call h1 h2 h4)
  · intro ctx m s s' msgs h1 h3 h4
    exact h3.step (.sudo h1 h4)

theorem init_empty {c : Config} {mins : List Coin} {s : State} (h : instantiate p c mins = .ok s) : s.auctions = .empty := by
  unfold instantiate at h
  simp only [bind_ok] at h
  obtain ⟨_, _, _, _, _, _, h⟩ := h
  cases h; rfl

theorem Spec.Run.solvent {x : World State × List Msg} (hl : LibOk p.lib) (h : Run p me honest x) :
    (sys p me honest).Solvent escrow x := by
  obtain ⟨c, mins, w0, hi, hs⟩ := h
  have h0 : WF p me w0.st ∧ (sys p me honest).Solvent escrow (w0, []) := by
    refine ⟨WF.init hi, ?_⟩
    intro d
    simp only [escrow, init_empty hi, AMap.sum_empty, outflow_nil]
    exact Nat.zero_le _
  refine (Sys.Steps.inv (P := fun y => WF p me y.1.st ∧ (sys p me honest).Solvent escrow y) ?_ hs h0).2
  rintro a b ⟨hw, hsol⟩ hab
  constructor
  · refine Sys.state_inv_step (S := sys p me honest) (I := WF p me) ?_ ?_ hw hab
    · intro ctx sender funds m s s' msgs h1 h2 h3 h4
      exact h3.exec h2 (execute_eff h4)
    · intro ctx m s s' msgs h1 h3 h4
      exact h3.sudo (sudo_eff h4)
  · refine Sys.solvent_step (S := sys p me honest) (I := WF p me) ?_ ?_ hw hsol hab
    · intro ctx sender funds m s s' msgs _ _ h3 h4 d
      have := conservation hl h3 (execute_eff h4) d
      rw [outflow_eq]; omega
    · intro ctx m s s' msgs _ h3 h4 d
      have := sudo_conservation hl h3 (sudo_eff h4) d
      rw [outflow_eq]; omega

/-! ### Custody -/

/-- Tokens under auction. -/
def held (s : State) (c : Addr) (t : Bytes) : Prop := s.auctions.get? (c, t) ≠ none

theorem pay_no_nft {m : Msg} (h : IsPayment m) {c : Addr} {t : Bytes} {to : Addr} : m ≠ .nft c t to := by
  rintro rfl; exact h

theorem pend_pay {S : Sys State Exec Sudo} {st : State} {owner : Addr → Bytes → Option Addr} {rest : List Msg} :
    ∀ {ms : List Msg}, (∀ m ∈ ms, IsPayment m) → S.Pend held st owner rest → S.Pend held st owner (ms ++ rest)
  | [], _, h => h
  | m :: _, hp, h => .skip (fun _ _ _ e => absurd e (pay_no_nft (hp m List.mem_cons_self)))
      (pend_pay (fun m hm => hp m (List.mem_cons_of_mem _ hm)) h)

theorem feeMsgs_pay (c : Config) : ∀ m ∈ feeMsgs c, IsPayment m := by
  intro m hm
  unfold feeMsgs at hm
  split at hm
  · cases hm
  · rw [List.mem_singleton] at hm; subst hm; trivial

theorem Settled.held_sub {ctx : Ctx} {a : Auction} {c : Config} {ws : List HaltWindow} {s s' : State} {ms : List Msg}
    (h : Settled p ctx a c ws s s' ms) (ha : s.auctions.get? a.key = some a) {cc : Addr} {t : Bytes} (hh : held s' cc t) : held s cc t := by
  by_cases e : (cc, t) = a.key
  · unfold held; rw [e, ha]; simp
  · unfold held at *
    rw [h.frame.2.2.2.2 _ e] at hh; exact hh

theorem Settled.nft {ctx : Ctx} {a : Auction} {c : Config} {ws : List HaltWindow} {s s' : State} {ms : List Msg} (hl : LibOk p.lib)
    (h : Settled p ctx a c ws s s' ms) {cc : Addr} {t : Bytes} {to : Addr} (hm : Msg.nft cc t to ∈ ms) :
    (cc, t) = a.key ∧ ¬ held s' cc t := by
  cases h with
  | postponed => cases hm
  | sold e h roy pay he hle hout hh hroy hpay =>
    rw [List.mem_append, List.mem_singleton] at hm
    rcases hm with hm | hm
    · exact absurd rfl (pay_no_nft (hl.pays _ _ _ _ _ _ hpay _ hm))
    · cases hm; exact ⟨rfl, by simp [held, Auction.key]⟩

theorem Batch.held_sub {ctx : Ctx} {c : Config} {ws : List HaltWindow} {as : List Auction} {s s' : State} {ms : List Msg}
    (h : Batch p ctx c ws as s s' ms) : Stored s as → ∀ {cc : Addr} {t : Bytes}, held s' cc t → held s cc t := by
  induction h with
  | nil => exact fun _ _ _ h => h
  | cons h1 _ ih => exact fun hst _ _ hh => h1.held_sub (hst.1 _ List.mem_cons_self) (ih (hst.tail h1) hh)

theorem Batch.nft {ctx : Ctx} {c : Config} {ws : List HaltWindow} {as : List Auction} {s s' : State} {ms : List Msg} (hl : LibOk p.lib)
    (h : Batch p ctx c ws as s s' ms) {cc : Addr} {t : Bytes} {to : Addr} (hm : Msg.nft cc t to ∈ ms) :
    (cc, t) ∈ as.map Auction.key := by
  induction h with
  | nil => cases hm
  | cons h1 _ ih =>
    rw [List.map_cons, List.mem_cons]
    rcases List.mem_append.mp hm with hm | hm
    · exact Or.inl (h1.nft hl hm).1
    · exact Or.inr (ih hm)

/-- Transfers of a batch: each token still owned, no longer claimed, each only once. -/
theorem Batch.pend {S : Sys State Exec Sudo} {owner : Addr → Bytes → Option Addr} {ctx : Ctx} {c : Config} {ws : List HaltWindow}
    {as : List Auction} {s s' : State} {ms : List Msg} (hl : LibOk p.lib) (h : Batch p ctx c ws as s s' ms) :
    Stored s as → S.Esc held s owner → S.Pend held s' owner ms := by
  induction h with
  | nil => exact fun _ _ => .nil
  | @cons a as s s1 s' m1 m2 h1 h2 ih =>
    intro hst he
    have ha := hst.1 _ List.mem_cons_self
    have he1 : S.Esc held s1 owner := fun c t hc hh => he c t hc (h1.held_sub ha hh)
    have ih' := ih (hst.tail h1) he1
    cases h1 with
    | postponed => exact ih'
    | sold e h roy pay he0 hle hout hh hroy hpay =>
      rw [List.append_assoc]
      refine pend_pay (hl.pays _ _ _ _ _ _ hpay) ?_
      show S.Pend held s' owner (.nft a.collection a.tokenId h.bidder :: m2)
      by_cases hc : S.honest a.collection
      · have hnd := hst.2
        rw [List.map_cons, List.nodup_cons] at hnd
        refine .out (he _ _ hc ?_) ?_ ?_ ih'
        · show s.auctions.get? a.key ≠ none
          rw [ha]; simp
        · intro hh'
          have := h2.held_sub (hst.tail (.sold e h roy pay he0 hle hout hh hroy hpay)) hh'
          exact this (by simp [Auction.key])
        · intro to' hm
          exact hnd.1 (h2.nft hl hm)
      · exact .skip (fun c' t' to' e => by cases e; exact hc) ih'

theorem custody_exec {ctx : Ctx} {sender : Addr} {funds : List Coin} {m : Exec} {s s' : State} {msgs : List Msg}
    {owner : Addr → Bytes → Option Addr} (hl : LibOk p.lib) (hself : ctx.self = me) (hne : sender ≠ me) (hw : WF p me s)
    (hq : ∀ c t, honest c → ctx.q.ownerOf c t = owner c t) (he : (sys p me honest).Esc held s owner)
    (e : Eff p ctx sender funds s m s' msgs) :
    (sys p me honest).J held s' owner msgs ∧ (sys p me honest).Untouched held owner s s' msgs := by
  have key : ∀ {k : Key} {a : Auction}, s.auctions.get? k = some a → a.key = k := fun h => (hw.auctions _ _ h).key
  -- nothing new claimed
  have out : (∀ c t, held s' c t → held s c t) → (sys p me honest).Pend held s' owner msgs →
      (∀ c t to, Msg.nft c t to ∈ msgs → held s c t) →
      (sys p me honest).J held s' owner msgs ∧ (sys p me honest).Untouched held owner s s' msgs := by
    intro hsub hp hn
    exact ⟨Sys.J_of_pend (fun c t hc hh => he c t hc (hsub c t hh)) hp,
      fun c t hc ho hh => ⟨fun h => hh (hsub c t h), fun to hm => hh (hn c t to hm)⟩⟩
  have ins : ∀ {k : Key} {a b : Auction}, s.auctions.get? k = some a → ∀ c t, held { s with auctions := s.auctions.insert a.key b } c t → held s c t := by
    intro k a b ha c t hh
    simp only [held, AMap.get?_insert] at hh ⊢
    split at hh
    case isTrue e => rw [← e, key ha, ha]; simp
    · exact hh
  cases e with
  | create coll tok r dur rec min hv hrec hown happ hno =>
    have hins : ∀ c t, held { s with auctions := s.auctions.insert (coll, tok) ⟨coll, tok, sender, r, dur, none, rec, none, none⟩ } c t →
        held s c t ∨ (c = coll ∧ t = tok) := by
      intro c t h
      simp only [held, AMap.get?_insert] at h
      split at h
      case isTrue e => cases e; exact Or.inr ⟨rfl, rfl⟩
      · exact Or.inl h
    have hfee := feeMsgs_pay s.config
    have hJ : (sys p me honest).J held { s with auctions := s.auctions.insert (coll, tok) ⟨coll, tok, sender, r, dur, none, rec, none, none⟩ }
        owner [.nft coll tok ctx.self] := by
      refine ⟨?_, ?_⟩
      · intro hc c t hc' hh
        unfold setOwner
        split
        · rw [hself]; rfl
        case isFalse hne' =>
          rcases hins c t hh with h | h
          · exact he c t hc' h
          · exact absurd h hne'
      · intro hc
        refine ⟨?_, .nil⟩
        intro c t hc' hh
        rcases hins c t hh with h | ⟨rfl, rfl⟩
        · exact he c t hc' h
        · exact absurd hc' hc
    constructor
    · unfold feeMsgs
      split
      · exact hJ
      · exact hJ
    · intro c t hc ho hn
      have hnot : ¬ (c = coll ∧ t = tok) := by
        rintro ⟨rfl, rfl⟩
        exact hne (hl.owner _ _ _ _ hown me (by rw [hq _ _ hc, ho]; rfl)).symm
      refine ⟨fun hh => ?_, ?_⟩
      · rcases hins c t hh with h | h
        · exact hn h
        · exact hnot h
      · intro to hm
        rw [List.mem_append, List.mem_singleton] at hm
        rcases hm with hm | hm
        · exact absurd rfl (pay_no_nft (hfee _ hm))
        · cases hm; exact hnot ⟨rfl, rfl⟩
  | reserve coll tok r a min hv hf ha hs hb => exact out (ins ha) .nil (fun _ _ _ h => by cases h)
  | cancel coll tok a hv hf ha hs hb =>
    have hk := key ha
    refine out ?_ ?_ ?_
    · intro c t hh
      simp only [held, AMap.get?_erase] at hh ⊢
      split at hh
      · exact absurd rfl hh
      · exact hh
    · by_cases hc : honest coll
      · refine .out (he _ _ hc ?_) ?_ (by simp) .nil
        · unfold held; rw [ha]; simp
        · simp [held, hk]
      · exact .skip (fun c' t' to' e => by cases e; exact hc) .nil
    · intro c t to hm
      rw [List.mem_singleton] at hm; cases hm
      unfold held; rw [ha]; simp
  | bid1 coll tok a n m e hv ha => exact out (ins ha) .nil (fun _ _ _ h => by cases h)
  | bid2 coll tok a n m f e e' h hv ha =>
    refine out (ins ha) (.skip (fun _ _ _ e => by cases e) .nil) ?_
    intro c t to hm; rw [List.mem_singleton] at hm; cases hm
  | settle coll tok a _ _ hv hf ha hset =>
    have hk := key ha
    have ha' : s.auctions.get? a.key = some a := by rw [hk]; exact ha
    refine out (fun c t => hset.held_sub ha') ?_ ?_
    · have := Batch.pend (S := sys p me honest) (owner := owner) hl (.cons hset (.nil _)) ⟨by simpa using ha', by simp⟩ he
      rwa [List.append_nil] at this
    · intro c t to hm
      have := (hset.nft hl hm).1
      unfold held; rw [this, ha']; simp

theorem Spec.Run.custody {x : World State × List Msg} (hl : LibOk p.lib) (h : Run p me honest x) :
    (sys p me honest).J held x.1.st x.1.owner x.2 := by
  obtain ⟨c, mins, w0, hi, hs⟩ := h
  have h0 : WF p me w0.st ∧ (sys p me honest).J held w0.st w0.owner [] := by
    refine ⟨WF.init hi, ?_⟩
    intro c t _ hh
    exact absurd (by rw [init_empty hi]; rfl) hh
  refine (Sys.Steps.inv (P := fun y => WF p me y.1.st ∧ (sys p me honest).J held y.1.st y.1.owner y.2) ?_ hs h0).2
  rintro a b ⟨hw, hj⟩ hab
  constructor
  · refine Sys.state_inv_step (S := sys p me honest) (I := WF p me) ?_ ?_ hw hab
    · intro ctx sender funds m s s' msgs h1 h2 h3 h4
      exact h3.exec h2 (execute_eff h4)
    · intro ctx m s s' msgs h1 h3 h4
      exact h3.sudo (sudo_eff h4)
  · refine Sys.custody_step (S := sys p me honest) (I := WF p me) ?_ ?_ hw hj hab
    · intro ctx sender funds m s s' msgs owner h1 h2 h3 h4 h5 h6
      exact custody_exec hl h1 h2 h3 h4 h5 (execute_eff h6)
    · intro ctx m s s' msgs owner h1 h3 h5 h6
      have e := sudo_eff h6
      cases e with
      | stop earliest s1 _ _ _ hb =>
        have hst := due_stored (ctx := ctx) h3
        have hp := Batch.pend (S := sys p me honest) (owner := owner) hl hb hst h5
        have he : (sys p me honest).Esc held s1 owner := fun c t hc hh => h5 c t hc (hb.held_sub hst hh)
        have hp' : (sys p me honest).Pend held { s1 with windows := dropStale s.windows earliest } owner msgs := by
          clear he h6 hb
          induction hp with
          | nil => exact .nil
          | skip hs _ ih => exact .skip hs ih
          | out ho hh hd _ ih => exact .out ho hh hd ih
        exact Sys.J_of_pend he hp'
      | begin => exact h5
      | params => exact h5
      | setMin => exact h5
      | unsetMin => exact h5

/-! ### Running payments -/

/-- Payments covered by the balance can be executed. -/
theorem run_payments {S : Sys State Exec Sudo} {rest : List Msg} : ∀ {ms : List Msg} {w : World State},
    (∀ m ∈ ms, IsPayment m) → (∀ d, paidOut d ms ≤ w.bank S.self d) →
    ∃ bank', S.Steps (w, ms ++ rest) ({ w with bank := bank' }, rest)
  | [], w, _, _ => ⟨w.bank, .refl _⟩
  | .send to cs :: ms, w, hp, hb => by
    have hpm := hp _ List.mem_cons_self
    have h1 : S.Step (w, .send to cs :: (ms ++ rest)) ({ w with bank := moveFunds w.bank S.self to cs }, ms ++ rest) := by
      refine .send w to cs _ hpm.1 hpm.2 ?_
      intro d; have := hb d; simp only [paidOut] at this; omega
    obtain ⟨b', h2⟩ := run_payments (S := S) (rest := rest) (ms := ms) (w := { w with bank := moveFunds w.bank S.self to cs })
      (fun m hm => hp m (List.mem_cons_of_mem _ hm)) (by
        intro d
        have := hb d
        have h3 := moveFunds_from_ge (bank := w.bank) (a := S.self) (b := to) (cs := cs) d
        simp only [paidOut] at *; omega)
    exact ⟨b', (Sys.Steps.single h1).trans h2⟩
  | .fairBurn cs :: ms, w, hp, hb => by
    have h1 : S.Step (w, .fairBurn cs :: (ms ++ rest)) ({ w with bank := takeFunds w.bank S.self cs }, ms ++ rest) := by
      refine .fairBurn w cs _ ?_
      intro d; have := hb d; simp only [paidOut] at this; omega
    obtain ⟨b', h2⟩ := run_payments (S := S) (rest := rest) (ms := ms) (w := { w with bank := takeFunds w.bank S.self cs })
      (fun m hm => hp m (List.mem_cons_of_mem _ hm)) (by
        intro d
        have := hb d
        simp only [paidOut, takeFunds, if_true] at *; omega)
    exact ⟨b', (Sys.Steps.single h1).trans h2⟩
  | .nft _ _ _ :: ms, w, hp, _ => absurd (hp _ List.mem_cons_self) (fun h => h)
  | .initRoyalty _ _ :: ms, w, hp, _ => absurd (hp _ List.mem_cons_self) (fun h => h)
  | .hook _ _ :: ms, w, hp, _ => absurd (hp _ List.mem_cons_self) (fun h => h)

end Verif.Auction

/-
Reserve auction: properties of funds, custody and settlement (C27, C29, C31, C35, C36, C42, C63-C65).
-/
import Verif.Auction.LifeLemmas
import Verif.Auction.Sample

namespace Verif.Auction
open Verif Spec

variable {p : Params} {me : Addr} {honest : Addr → Prop}

/-! ### Sample worlds -/

namespace Sample

def w0 : World State where
  bank a d := if d = ust ∧ (a = bob ∨ a = carol ∨ a = alice) then 1000 else 0
  owner c t := if c = coll ∧ t = tok then some alice else none
  approved _ _ := true
  time := 1000000000000
  height := 7
  st := s0

abbrev hon : Addr → Prop := fun _ => True
abbrev M := sys P self hon
def qw (w : World State) : Queries := { q none with ownerOf := w.owner }

def at_ (w : World State) (sender : Addr) (funds : List Coin) (m : Exec) : World State :=
  { w with bank := moveFunds w.bank sender self funds, st := (run (M.ctx w (qw w)) sender funds m w.st).1 }

theorem call2 {w : World State} (hr : Run P self hon (w, [])) {sender : Addr} {funds : List Coin} {m : Exec} {msgs : List Msg}
    (hne : sender ≠ self) (hfunds : ∀ d, amountOf d funds ≤ w.bank sender d)
    (hs : ok (M.ctx w (qw w)) sender funds m w.st = true) (hm : (run (M.ctx w (qw w)) sender funds m w.st).2 = msgs) :
    Run P self hon (at_ w sender funds m, msgs) := by
  have h1 := Sys.Step.call (S := M) w [] sender funds m (qw w) (run (M.ctx w (qw w)) sender funds m w.st).1
    (run (M.ctx w (qw w)) sender funds m w.st).2 trivial hne hfunds (fun _ _ _ => rfl) (run_eq hs)
  rw [hm, List.append_nil] at h1
  exact Spec.Run.step hr h1

theorem ust_only {n : Nat} {bank : Denom → Nat} (h : n ≤ bank ust) : ∀ d, amountOf d [⟨ust, n⟩] ≤ bank d := by
  intro d
  simp only [amountOf, Coin.inDenom]
  by_cases e : d = ust
  · subst e; simpa using h
  · rw [if_neg (fun h => e h.symm)]; exact Nat.zero_le _

def okIs {α : Type} [DecidableEq α] (r : Res α) (a : α) : Bool :=
  match r with
  | .ok x => decide (x = a)
  | .error _ => false

theorem okIs_eq {α : Type} [DecidableEq α] {r : Res α} {a : α} (h : okIs r a = true) : r = .ok a := by
  unfold okIs at h
  split at h
  · rw [of_decide_eq_true h]
  · cases h

theorem run0 : Run P self hon (w0, []) := ⟨cfg, _, w0, init0, .refl _⟩
/-- alice creates an auction: the fee is burnt and the token transferred -/
def w1 : World State := at_ w0 alice [⟨ust, 5⟩] (.create coll tok ⟨ust, 100⟩ 60 none)
theorem run1 : Run P self hon (w1, [.fairBurn [⟨ust, 5⟩], .nft coll tok self]) :=
  call2 run0 (by decide) (ust_only (by decide +kernel)) (by decide +kernel) (by decide +kernel)
def w2 : World State := { w1 with bank := takeFunds w1.bank self [⟨ust, 5⟩] }
theorem run2 : Run P self hon (w2, [.nft coll tok self]) :=
  Spec.Run.step run1 (Sys.Step.fairBurn (S := M) w1 [⟨ust, 5⟩] _ (ust_only (by decide +kernel)))
def w3 : World State := { w2 with owner := setOwner w2.owner coll tok self }
theorem run3 : Run P self hon (w3, []) :=
  Spec.Run.step run2 (Sys.Step.nft (S := M) w2 coll tok self [] alice trivial (by decide +kernel) (Or.inr rfl))
/-- bob bids 100 -/
def w4 : World State := at_ w3 bob [⟨ust, 100⟩] (.bid coll tok)
theorem run4 : Run P self hon (w4, []) :=
  call2 run3 (by decide) (ust_only (by decide +kernel)) (by decide +kernel) (by decide +kernel)
/-- carol bids 120: bob is to be refunded -/
def w5 : World State := at_ w4 carol [⟨ust, 120⟩] (.bid coll tok)
theorem run5 : Run P self hon (w5, [.send bob [⟨ust, 100⟩]]) :=
  call2 run4 (by decide) (ust_only (by decide +kernel)) (by decide +kernel) (by decide +kernel)
/-- 100 s later -/
def w6 : World State := { w4 with time := 1100000000000, height := 8 }
theorem run6 : Run P self hon (w6, []) :=
  Spec.Run.step run4 (Sys.Step.block (S := M) w4 _ _ (by decide +kernel) (by decide +kernel))
end Sample

/-! ### C27 -/

/-- At every point of every run the balance covers all standing high bids and all payments still to be sent. -/
theorem C27_backed (hl : LibOk p.lib) {w : World State} {stack : List Msg} (h : Run p me honest (w, stack)) (d : Denom) :
    amountOf d (highBids w.st) + paidOut d stack ≤ w.bank me d := by
  have := Spec.Run.solvent hl h d
  rw [escrow_eq, outflow_eq] at this
  exact this

example := C27_backed Sample.libOk Sample.run5 Sample.ust
example : amountOf Sample.ust (highBids Sample.w5.st) = 120 ∧ Sample.w5.bank Sample.self Sample.ust = 220 := by decide +kernel

/-! ### C29 -/

/-- Outbidding sends exactly the previous high bid to the previous bidder; the first bid sends nothing. The new high bid
is exactly what was paid. -/
theorem C29_refund {s s' : State} {ctx : Ctx} {sender : Addr} {funds : List Coin} {coll tok : Bytes} {msgs : List Msg}
    (hr : Reach p me s) (h : execute p ctx sender funds (.bid coll tok) s = .ok (s', msgs)) :
    ∃ a a' b', s.auctions.get? (coll, tok) = some a ∧ s'.auctions.get? (coll, tok) = some a' ∧ a'.highBid = some b' ∧
      b'.bidder = sender ∧ funds = [b'.coin] ∧
      (a.highBid = none → msgs = []) ∧ ∀ b, a.highBid = some b → msgs = [.send b.bidder [b.coin]] := by
  have hw := hr.wf
  cases execute_eff h with
  | bid1 _ _ a n m e hv ha hs hfunds hpos hm hge hend hb =>
    have hg := hw.auctions _ _ ha
    have hn := hg.high.mpr (hg.first.mp hb)
    exact ⟨a, _, _, ha, by rw [hg.key, AMap.get?_insert_self], rfl, rfl, hfunds, fun _ => rfl,
      fun b hb => by rw [hn] at hb; cases hb⟩
  | bid2 _ _ a n m f e e' hi hv ha hs hfunds hpos hm hge hend hb hh =>
    have hg := hw.auctions _ _ ha
    refine ⟨a, _, _, ha, by rw [hg.key, AMap.get?_insert_self], rfl, rfl, hfunds, ?_, ?_⟩
    · intro hn; rw [hn] at hh; cases hh
    · intro b hb; rw [hh] at hb; cases hb; rfl

example : (Sample.run (Sample.ctx 1040500) Sample.carol [⟨Sample.ust, 120⟩] (.bid Sample.coll Sample.tok) Sample.s3).2 =
    [.send Sample.bob [⟨Sample.ust, 100⟩]] := by decide +kernel

/-- Between transactions, every bid the handler accepts goes through: the refund is paid. -/
theorem C29_live (hl : LibOk p.lib) {w : World State} (h : Run p me honest (w, [])) {coll tok : Bytes} {a : Auction} {b : HighBid}
    (ha : w.st.auctions.get? (coll, tok) = some a) (hb : a.highBid = some b)
    (q : Queries) (hq : (sys p me honest).queriesOk w q) {sender : Addr} {funds : List Coin} (hne : sender ≠ me)
    (hfunds : ∀ d, amountOf d funds ≤ w.bank sender d) {s' : State} {msgs : List Msg}
    (hx : execute p ((sys p me honest).ctx w q) sender funds (.bid coll tok) w.st = .ok (s', msgs)) :
    ∃ w', (sys p me honest).Steps (w, []) (w', []) ∧ w'.st = s' ∧
      (sender ≠ b.bidder → ∀ d, w'.bank b.bidder d = w.bank b.bidder d + amountOf d [b.coin]) ∧
      ∀ d, w'.bank me d + amountOf d [b.coin] = w.bank me d + amountOf d funds := by
  have hr := Spec.Run.reach h
  have hg := hr.wf.auctions _ _ ha
  obtain ⟨_, hpos, _, hbm⟩ := hg.coin b hb
  obtain ⟨a0, _, _, ha0, _, _, _, _, _, hm⟩ := C29_refund hr hx
  rw [show w.st.auctions.get? (coll, tok) = some a from ha] at ha0; cases ha0
  have hm := hm b hb
  subst hm
  have h1 := Sys.Step.call (S := sys p me honest) w [] sender funds (.bid coll tok) q s' _ trivial hne hfunds hq hx
  rw [List.append_nil] at h1
  have hme : (sys p me honest).self = me := rfl
  have hbal : ∀ d, amountOf d [b.coin] ≤ moveFunds w.bank sender me funds me d := by
    intro d
    have h2 := Spec.Run.solvent hl h d
    have h3 : bidIn d a ≤ escrow w.st d := AMap.le_sum _ ha
    have h4 : bidIn d a = amountOf d [b.coin] := by unfold bidIn; rw [hb]; simp [amountOf]
    rw [moveFunds_to hne]
    simp only [outflow_nil, hme] at h2
    omega
  refine ⟨_, .tail (.single h1) (Sys.Step.send (S := sys p me honest) _ b.bidder [b.coin] [] (by simp) (by simpa using hpos) hbal), rfl, ?_, ?_⟩
  · intro hsb d
    have h5 : me ≠ b.bidder := fun e => hbm e.symm
    show moveFunds (moveFunds w.bank sender me funds) me b.bidder [b.coin] b.bidder d = _
    rw [moveFunds_to h5, moveFunds_other (fun e => hsb e.symm) hbm]
  · intro d
    have h5 : me ≠ b.bidder := fun e => hbm e.symm
    show moveFunds (moveFunds w.bank sender me funds) me b.bidder [b.coin] me d + _ = _
    rw [moveFunds_from h5]
    have := hbal d
    rw [moveFunds_to hne] at *
    omega

example := C29_live Sample.libOk Sample.run4 (coll := Sample.coll) (tok := Sample.tok) (b := ⟨⟨Sample.ust, 100⟩, Sample.bob⟩)
  (a := ⟨Sample.coll, Sample.tok, Sample.alice, ⟨Sample.ust, 100⟩, 60, some 1060000000000, none, some ⟨⟨Sample.ust, 100⟩, Sample.bob⟩,
    some 1000000000000⟩) (by decide +kernel) rfl (Sample.qw Sample.w4) (fun _ _ _ => rfl) (sender := Sample.carol)
  (funds := [⟨Sample.ust, 120⟩]) (by decide) (Sample.ust_only (by decide +kernel)) (Sample.run_eq (by decide +kernel))

/-! ### C31 -/

/-- Between transactions every token of a conforming collection under auction is owned by the contract. -/
theorem C31_custody (hl : LibOk p.lib) {w : World State} (h : Run p me honest (w, [])) {k : Key} {a : Auction}
    (ha : w.st.auctions.get? k = some a) (hh : honest k.1) : w.owner k.1 k.2 = some me :=
  Spec.Run.custody hl h k.1 k.2 hh (by
    show w.st.auctions.get? k ≠ none
    rw [ha]; simp)

example := C31_custody Sample.libOk Sample.run4 (k := (Sample.coll, Sample.tok))
  (a := ⟨Sample.coll, Sample.tok, Sample.alice, ⟨Sample.ust, 100⟩, 60, some 1060000000000, none, some ⟨⟨Sample.ust, 100⟩, Sample.bob⟩,
    some 1000000000000⟩) (by decide +kernel) trivial

/-! ### C35 -/

/-- What the settlement of one auction `a` (key `k`) amounts to. -/
inductive Outcome (p : Params) (q : Queries) (s s' : State) (t : Nat) (k : Key) (a : Auction) (msgs : List Msg) : Prop where
  /-- postponed: the end time lies in a halt window; no messages -/
  | postponed (e : Nat) (w : HaltWindow) (he : a.endTime = some e) (hle : e ≤ t) (hw : w ∈ s.windows) (h1 : w.start < sec e)
      (h2 : sec e < w.stop)
      (h : s'.auctions.get? k = some { a with endTime := some (t + s.config.haltPostpone * 1000000000) }) (hm : msgs = [])
  /-- sold: payments of exactly the high bid, then the NFT to the high bidder. The payments are those the library makes for the
  sale of the collection's token at the high bid, in favour of the funds recipient or else the seller, at the configured
  trading fee and with the royalty the collection asks for -/
  | sold (e : Nat) (b : HighBid) (roy : Option Royalty) (pay : List Msg) (he : a.endTime = some e) (hle : e ≤ t)
      (hw : ∀ w ∈ s.windows, ¬ (w.start < sec e ∧ sec e < w.stop)) (hb : a.highBid = some b)
      (h : s'.auctions.get? k = none) (hm : msgs = pay ++ [.nft k.1 k.2 b.bidder]) (hp : ∀ m ∈ pay, IsPayment m)
      (hx : ∀ d, paidOut d pay = amountOf d [b.coin]) (hroy : p.lib.royalties q k.1 = .ok roy)
      (hpay : p.lib.payout b.coin (a.recipient.getD a.seller) s.config.fairBurn s.config.tradingFee roy = .ok pay)

theorem inHalt_true {ws : List HaltWindow} {t : Nat} (h : inHalt ws t = true) : ∃ w ∈ ws, w.start < t ∧ t < w.stop := by
  unfold inHalt at h
  rw [List.any_eq_true] at h
  obtain ⟨w, hw, h⟩ := h
  exact ⟨w, hw, by simpa using h⟩

theorem inHalt_false {ws : List HaltWindow} {t : Nat} (h : inHalt ws t = false) : ∀ w ∈ ws, ¬ (w.start < t ∧ t < w.stop) := by
  intro w hw hc
  unfold inHalt at h
  rw [List.any_eq_false] at h
  exact h w hw (by simpa using hc)

theorem inHalt_of {ws : List HaltWindow} {t : Nat} {w : HaltWindow} (hw : w ∈ ws) (h1 : w.start < t) (h2 : t < w.stop) :
    inHalt ws t = true := by
  unfold inHalt
  rw [List.any_eq_true]
  exact ⟨w, hw, by simpa using ⟨h1, h2⟩⟩

theorem Settled.outcome {ctx : Ctx} {a : Auction} {s s1 s1' s' : State} {ms : List Msg} (hl : LibOk p.lib)
    (h : Settled p ctx a s.config s.windows s1 s1' ms) (he : s'.auctions.get? a.key = s1'.auctions.get? a.key) :
    Outcome p ctx.q s s' ctx.time a.key a ms := by
  cases h with
  | postponed e e' hend hle hin hov he' =>
    obtain ⟨w, hw, h1, h2⟩ := inHalt_true hin
    exact .postponed e w hend hle hw h1 h2 (by rw [he, AMap.get?_insert_self, he']; rfl) rfl
  | sold e b roy pay hend hle hout hh hroy hpay =>
    exact .sold e b roy pay hend hle (inHalt_false hout) hh (by rw [he, AMap.get?_erase_self]) rfl
      (hl.pays _ _ _ _ _ _ hpay) (hl.exact _ _ _ _ _ _ hpay) hroy hpay

/-- A settlement by call either postpones the auction or removes it, hands over the NFT and pays out exactly the high bid. -/
theorem C35_settle (hl : LibOk p.lib) {s s' : State} {ctx : Ctx} {sender : Addr} {f : List Coin} {coll tok : Bytes} {msgs : List Msg}
    (hr : Reach p me s) (h : execute p ctx sender f (.settle coll tok) s = .ok (s', msgs)) :
    f = [] ∧ ∃ a, s.auctions.get? (coll, tok) = some a ∧ Outcome p ctx.q s s' ctx.time (coll, tok) a msgs ∧
      (∀ k', k' ≠ (coll, tok) → s'.auctions.get? k' = s.auctions.get? k') ∧ s' = { s with auctions := s'.auctions } := by
  cases execute_eff h with
  | settle _ _ a _ _ hv hf ha hs =>
    have := hs.outcome (s' := s') hl rfl
    have hk := (hr.wf.auctions _ _ ha).key
    rw [hk] at this
    obtain ⟨f1, f2, f3, f4, f5⟩ := hs.frame
    refine ⟨hf, a, ha, this, fun k' hk' => f5 k' (hk ▸ hk'), ?_⟩
    cases s'; simp only at f1 f2 f3 f4; subst f1 f2 f3 f4; rfl

theorem Batch.seg {ctx : Ctx} {c : Config} {ws : List HaltWindow} {as : List Auction} {s s' : State} {ms : List Msg}
    (hl : LibOk p.lib) (h : Batch p ctx c ws as s s' ms) :
    Stored s as → ∀ a ∈ as, ∃ s1 s1' pre m1 post, Settled p ctx a c ws s1 s1' m1 ∧
      s'.auctions.get? a.key = s1'.auctions.get? a.key ∧ ms = pre ++ m1 ++ post ∧
      (∀ to, .nft a.collection a.tokenId to ∉ pre) ∧ ∀ to, .nft a.collection a.tokenId to ∉ post := by
  induction h with
  | nil => intro _ a ha; cases ha
  | @cons b as s s1 s' m1 m2 h1 h2 ih =>
    intro hst a ha
    have hnd := hst.2
    rw [List.map_cons, List.nodup_cons] at hnd
    rw [List.mem_cons] at ha
    rcases ha with rfl | ha
    · refine ⟨s, s1, [], m1, m2, h1, ?_, by simp, by simp, ?_⟩
      · apply h2.frame.2.2.2.2
        intro b hb e
        exact hnd.1 (e ▸ List.mem_map_of_mem hb)
      · intro to hm
        exact hnd.1 (h2.nft hl hm)
    · obtain ⟨t, t', pre, m, post, x1, x2, x3, x4, x5⟩ := ih (hst.tail h1) a ha
      refine ⟨t, t', m1 ++ pre, m, post, x1, x2, by rw [x3]; simp, ?_, x5⟩
      intro to hm
      rcases List.mem_append.mp hm with hm | hm
      · have := (h1.nft hl hm).1
        exact hnd.1 (this ▸ List.mem_map_of_mem (f := Auction.key) ha)
      · exact x4 to hm

/-- The same for each auction touched by the end-block hook; its messages are a segment of all messages, and no other
message concerns its token. Untouched auctions stay as they are and none of their tokens move. -/
theorem C35_batch (hl : LibOk p.lib) {s s' : State} {ctx : Ctx} {msgs : List Msg} (hr : Reach p me s)
    (h : sudo p ctx .endBlock s = .ok (s', msgs)) {k : Key} {a : Auction} (ha : s.auctions.get? k = some a) :
    (s'.auctions.get? k = some a ∧ ∀ to, .nft k.1 k.2 to ∉ msgs) ∨
    ∃ pre m post, msgs = pre ++ m ++ post ∧ Outcome p ctx.q s s' ctx.time k a m ∧
      (∀ to, .nft k.1 k.2 to ∉ pre) ∧ ∀ to, .nft k.1 k.2 to ∉ post := by
  have hw := hr.wf
  cases sudo_eff h with
  | stop earliest s1 _ _ _ hb =>
    have hst := due_stored (ctx := ctx) hw
    have hk : a.key = k := (hw.auctions _ _ ha).key
    by_cases hin : a ∈ dueAuctions ctx s
    · right
      obtain ⟨t, t', pre, m, post, x1, x2, x3, x4, x5⟩ := hb.seg hl hst a hin
      have ho := x1.outcome (s' := { s1 with windows := dropStale s.windows earliest }) hl x2
      subst hk
      exact ⟨pre, m, post, x3, ho, x4, x5⟩
    · left
      have hne : ∀ b ∈ dueAuctions ctx s, b.key ≠ k := by
        intro b hb e
        have := hst.1 b hb
        rw [e, ha] at this
        cases this
        exact hin hb
      refine ⟨by rw [← ha]; exact hb.frame.2.2.2.2 k hne, ?_⟩
      intro to hm
      obtain ⟨b, hb1, hb2⟩ := List.mem_map.mp (hb.nft hl hm)
      exact hne b hb1 hb2

/-- Without an auction (in particular after settlement) the token cannot be settled, cancelled, bid on or repriced. -/
theorem C35_once {s : State} {coll tok : Bytes} (hn : s.auctions.get? (coll, tok) = none) (ctx : Ctx) (sender : Addr)
    (funds : List Coin) (r : State × List Msg) :
    execute p ctx sender funds (.settle coll tok) s ≠ .ok r ∧ execute p ctx sender funds (.cancel coll tok) s ≠ .ok r ∧
    execute p ctx sender funds (.bid coll tok) s ≠ .ok r ∧ ∀ c, execute p ctx sender funds (.updateReserve coll tok c) s ≠ .ok r := by
  obtain ⟨s', ms⟩ := r
  have no : ∀ {a : Auction}, s.auctions.get? (coll, tok) = some a → False := fun h => by rw [hn] at h; cases h
  refine ⟨?_, ?_, ?_, ?_⟩
  · intro h; cases execute_eff h with | settle _ _ a _ _ hv hf ha hs => exact no ha
  · intro h; cases execute_eff h with | cancel _ _ a hv hf ha => exact no ha
  · intro h
    cases execute_eff h with
    | bid1 _ _ a n m e hv ha => exact no ha
    | bid2 _ _ a n m f e e' hi hv ha => exact no ha
  · intro c h; cases execute_eff h with | reserve _ _ _ a min hv hf ha => exact no ha

example : Sample.ok (Sample.ctx 1080000) Sample.bob [] (.settle Sample.coll Sample.tok) Sample.s4 = true ∧
    Sample.s5.auctions.get? (Sample.coll, Sample.tok) = none := by decide +kernel
example : Sample.sok (Sample.ctx 1080000) .endBlock Sample.s4 = true := by decide +kernel

/-! ### C36 -/

/-- Between transactions any account can settle an ended auction of a conforming collection; all messages are accepted;
the high bidder gets the token. (`hpay`: the fee split for this sale succeeds.) -/
theorem C36_settle (hl : LibOk p.lib) {w : World State} (h : Run p me honest (w, [])) {coll tok : Bytes} {a : Auction}
    {e : Nat} {b : HighBid} (ha : w.st.auctions.get? (coll, tok) = some a) (hh : honest coll) (he : a.endTime = some e)
    (hle : e ≤ w.time) (hout : ∀ x ∈ w.st.windows, ¬ (x.start < sec e ∧ sec e < x.stop)) (hb : a.highBid = some b)
    (q : Queries) (hq : (sys p me honest).queriesOk w q)
    {roy : Option Royalty} {pay : List Msg} (hroy : p.lib.royalties q coll = .ok roy)
    (hpay : p.lib.payout b.coin (a.recipient.getD a.seller) w.st.config.fairBurn w.st.config.tradingFee roy = .ok pay)
    (caller : Addr) (hne : caller ≠ me) :
    ∃ w', (sys p me honest).Steps (w, []) (w', []) ∧ w'.st.auctions.get? (coll, tok) = none ∧
      (∀ k, k ≠ (coll, tok) → w'.st.auctions.get? k = w.st.auctions.get? k) ∧
      w'.owner coll tok = some b.bidder ∧ w'.time = w.time := by
  have hr := Spec.Run.reach h
  have hg := hr.wf.auctions _ _ ha
  have hk : a.collection = coll ∧ a.tokenId = tok := by
    have := hg.key; unfold Auction.key at this; cases this; exact ⟨rfl, rfl⟩
  have hhalt : inHalt w.st.windows (secs e) = false := by
    cases hc : inHalt w.st.windows (secs e) with
    | false => rfl
    | true =>
      obtain ⟨x, h1, h2⟩ := inHalt_true hc
      exact absurd h2 (hout x h1)
  have hx : execute p ((sys p me honest).ctx w q) caller [] (.settle coll tok) w.st =
      .ok ({ w.st with auctions := w.st.auctions.erase a.key }, [] ++ (pay ++ [.nft a.collection a.tokenId b.bidder])) := by
    have hv : p.valid coll = true := by have := hg.valid; rwa [hk.1] at this
    have h1 := settle_sold (p := p) (ctx := (sys p me honest).ctx w q) (c := w.st.config) (ws := w.st.windows) (ms := [])
      (s := w.st) he hle hhalt hb (roy := roy) (pay := pay) (by rw [hk.1]; exact hroy) hpay
    rw [← h1]
    unfold execute executeSettle
    simp only [addrValidate, hv, if_true, ok_bind, nonpayable, ensure, ha, orErr]
  have h1 := Sys.Step.call (S := sys p me honest) w [] caller [] (.settle coll tok) q _ _ trivial hne (fun d => Nat.zero_le _) hq hx
  rw [List.append_nil, List.nil_append] at h1
  have hbk : moveFunds w.bank caller (sys p me honest).self [] = w.bank := by
    funext x d; simp [moveFunds, amountOf]
  rw [hbk] at h1
  obtain ⟨bank', h2⟩ := run_payments (S := sys p me honest) (rest := [.nft a.collection a.tokenId b.bidder])
    (w := { w with st := { w.st with auctions := w.st.auctions.erase a.key } }) (hl.pays _ _ _ _ _ _ hpay) (by
      intro d
      rw [hl.exact _ _ _ _ _ _ hpay]
      have h2 := Spec.Run.solvent hl h d
      have h3 : bidIn d a ≤ escrow w.st d := AMap.le_sum _ ha
      have h4 : bidIn d a = amountOf d [b.coin] := by unfold bidIn; rw [hb]; simp [amountOf]
      simp only [outflow_nil] at h2
      show _ ≤ w.bank _ d
      omega)
  have how : w.owner a.collection a.tokenId = some me := by
    rw [hk.1, hk.2]; exact C31_custody hl h ha hh
  refine ⟨_, .tail ((Sys.Steps.single h1).trans h2) (Sys.Step.nft (S := sys p me honest) _ a.collection a.tokenId b.bidder [] me
    (by rw [hk.1]; exact hh) how (Or.inl rfl)), ?_, ?_, ?_, rfl⟩
  · show (w.st.auctions.erase a.key).get? _ = none
    rw [hg.key, AMap.get?_erase_self]
  · intro k hne
    show (w.st.auctions.erase a.key).get? _ = _
    rw [hg.key, AMap.get?_erase]
    exact if_neg (fun e => hne e.symm)
  · simp [setOwner, hk.1, hk.2]

/-- If the end time lies in a halt window, any account can have the auction postponed instead. -/
theorem C36_postpone {w : World State} (h : Run p me honest (w, [])) {coll tok : Bytes} {a : Auction}
    {e : Nat} (ha : w.st.auctions.get? (coll, tok) = some a) (he : a.endTime = some e) (hle : e ≤ w.time)
    (x : HaltWindow) (hx : x ∈ w.st.windows) (h1 : x.start < sec e) (h2 : sec e < x.stop)
    (hov : w.time + w.st.config.haltPostpone * 1000000000 < 2^64) (q : Queries) (hq : (sys p me honest).queriesOk w q)
    (caller : Addr) (hne : caller ≠ me) :
    ∃ w', (sys p me honest).Steps (w, []) (w', []) ∧
      w'.st.auctions.get? (coll, tok) = some { a with endTime := some (w.time + w.st.config.haltPostpone * 1000000000) } ∧
      w'.bank = w.bank ∧ w'.owner = w.owner := by
  have hr := Spec.Run.reach h
  have hg := hr.wf.auctions _ _ ha
  have hk : a.collection = coll ∧ a.tokenId = tok := by
    have := hg.key; unfold Auction.key at this; cases this; exact ⟨rfl, rfl⟩
  have hin := inHalt_of hx (t := secs e) h1 h2
  have hps : plusSeconds w.time w.st.config.haltPostpone = .ok (w.time + w.st.config.haltPostpone * 1000000000) :=
    plusSeconds_of (Nat.le_of_lt_succ hov) rfl
  have hv : p.valid coll = true := by have := hg.valid; rwa [hk.1] at this
  have hex := settle_postponed (p := p) (ctx := (sys p me honest).ctx w q) (c := w.st.config) (ws := w.st.windows) (ms := [])
    (s := w.st) he hle hin hps
  have hcall : execute p ((sys p me honest).ctx w q) caller [] (.settle coll tok) w.st =
      settleAuction p ((sys p me honest).ctx w q) a w.st.config w.st.windows [] w.st := by
    unfold execute executeSettle
    simp only [addrValidate, hv, if_true, ok_bind, nonpayable, ensure, ha, orErr]
  have h1 := Sys.Step.call (S := sys p me honest) w [] caller [] (.settle coll tok) q _ _ trivial hne (fun d => Nat.zero_le _) hq (hcall.trans hex)
  have hbk : moveFunds w.bank caller (sys p me honest).self [] = w.bank := by
    funext x d; simp [moveFunds, amountOf]
  rw [hbk] at h1
  refine ⟨_, .single h1, ?_, rfl, rfl⟩
  show (w.st.auctions.insert a.key _).get? _ = _
  rw [hg.key, AMap.get?_insert_self]

/-- Non-vacuous: anyone settles bob's winning bid at 1100 s. -/
example := C36_settle Sample.libOk Sample.run6 (coll := Sample.coll) (tok := Sample.tok)
  (a := ⟨Sample.coll, Sample.tok, Sample.alice, ⟨Sample.ust, 100⟩, 60, some 1060000000000, none, some ⟨⟨Sample.ust, 100⟩, Sample.bob⟩,
    some 1000000000000⟩) (e := 1060000000000) (b := ⟨⟨Sample.ust, 100⟩, Sample.bob⟩) (by decide +kernel) trivial rfl (by decide +kernel)
  (by intro x hx; exact absurd hx (by rw [show Sample.w6.st.windows = [] from by decide +kernel]; simp)) rfl
  (Sample.qw Sample.w6) (fun _ _ _ => rfl)
  (roy := some ⟨Sample.artist, 5 * 10^16⟩)
  (pay := [.fairBurn [⟨Sample.ust, 2⟩], .send Sample.artist [⟨Sample.ust, 5⟩], .send Sample.alice [⟨Sample.ust, 93⟩]])
  (Sample.okIs_eq (by decide +kernel)) (Sample.okIs_eq (by decide +kernel)) Sample.carol (by decide)

/-! ### C42 -/

/-- Nothing above the configured fee stays in the contract when an auction is created. -/
def C42_statement : Prop :=
  ∀ (p : Params) (me : Addr) (s s' : State) (ctx : Ctx) (sender : Addr) (funds : List Coin) (coll tok : Bytes) (r : Coin) (d : Nat)
    (rec : Option Bytes) (msgs : List Msg), LibOk p.lib → Reach p me s →
    execute p ctx sender funds (.create coll tok r d rec) s = .ok (s', msgs) →
    ∀ x, paidOut x msgs = amountOf x funds

/-- The code violates it: alice attaches 8 to a creation fee of 5; 5 are burnt and 3 stay. -/
theorem C42_violated : ¬ C42_statement := by
  intro h
  have := h Sample.P Sample.self Sample.s1 _ (Sample.ctx 1000000 (some Sample.alice)) Sample.alice [⟨Sample.ust, 8⟩] Sample.coll
    Sample.tok ⟨Sample.ust, 100⟩ 60 none _ Sample.libOk Sample.r1 (Sample.run_eq (by decide +kernel)) Sample.ust
  revert this
  decide +kernel

/-- Part that holds: exactly the fee is forwarded (nothing if it is zero, and then no funds are accepted); at least the fee
is required, and then the NFT is taken into custody. -/
theorem C42_partial {s s' : State} {ctx : Ctx} {sender : Addr} {funds : List Coin} {coll tok : Bytes} {r : Coin} {d : Nat}
    {rec : Option Bytes} {msgs : List Msg} (h : execute p ctx sender funds (.create coll tok r d rec) s = .ok (s', msgs)) :
    (∀ x, amountOf x [s.config.createFee] ≤ amountOf x funds ∧ paidOut x msgs = amountOf x [s.config.createFee]) ∧
    (s.config.createFee.amount = 0 → funds = [] ∧ msgs = [.nft coll tok ctx.self]) ∧
    (s.config.createFee.amount ≠ 0 → msgs = [.fairBurn [s.config.createFee], .nft coll tok ctx.self]) := by
  cases execute_eff h with
  | create _ _ _ _ _ min hv hrec hown happ hno htr hmin hres hdur hfee =>
    unfold feeMsgs at *
    by_cases h0 : s.config.createFee.amount = 0
    · rw [if_pos h0] at hfee
      refine ⟨?_, fun _ => ⟨hfee, by simp [h0]⟩, fun h => absurd h0 h⟩
      intro x
      simp [h0, hfee, paidOut, amountOf, Coin.inDenom]
    · rw [if_neg h0] at hfee
      refine ⟨fun x => ⟨hasCoins_le hfee x, by simp [h0, paidOut]⟩, fun h => absurd h h0, fun _ => by simp [h0]⟩

example : (Sample.run (Sample.ctx 1000000 (some Sample.alice)) Sample.alice [⟨Sample.ust, 8⟩]
      (.create Sample.coll Sample.tok ⟨Sample.ust, 100⟩ 60 none) Sample.s1).2 =
    [.fairBurn [⟨Sample.ust, 5⟩], .nft Sample.coll Sample.tok Sample.self] := by decide +kernel

/-! ### C63 -/

/-- Between transactions the seller of an auction without bids can cancel it and gets the token back. -/
theorem C63_cancel (hl : LibOk p.lib) {w : World State} (h : Run p me honest (w, [])) {coll tok : Bytes} {a : Auction}
    (ha : w.st.auctions.get? (coll, tok) = some a) (hh : honest coll) (hb : a.highBid = none)
    (q : Queries) (hq : (sys p me honest).queriesOk w q) :
    ∃ w', (sys p me honest).Steps (w, []) (w', []) ∧ w'.st.auctions.get? (coll, tok) = none ∧
      (∀ k, k ≠ (coll, tok) → w'.st.auctions.get? k = w.st.auctions.get? k) ∧
      w'.owner coll tok = some a.seller ∧ w'.bank = w.bank := by
  have hr := Spec.Run.reach h
  have hg := hr.wf.auctions _ _ ha
  have hk : a.collection = coll ∧ a.tokenId = tok := by
    have := hg.key; unfold Auction.key at this; cases this; exact ⟨rfl, rfl⟩
  have hv : p.valid coll = true := by have := hg.valid; rwa [hk.1] at this
  have hf : a.firstBid = none := hg.first.mpr (hg.high.mp hb)
  have hx : execute p ((sys p me honest).ctx w q) a.seller [] (.cancel coll tok) w.st =
      .ok ({ w.st with auctions := w.st.auctions.erase a.key }, [.nft coll tok a.seller]) := by
    unfold execute executeCancel
    simp only [addrValidate, hv, if_true, ok_bind, nonpayable, ensure, ha, orErr, hf]
  have h1 := Sys.Step.call (S := sys p me honest) w [] a.seller [] (.cancel coll tok) q _ _ trivial hg.seller
    (fun d => Nat.zero_le _) hq hx
  have hbk : moveFunds w.bank a.seller (sys p me honest).self [] = w.bank := by
    funext x d; simp [moveFunds, amountOf]
  rw [hbk] at h1
  refine ⟨_, .tail (.single h1) (Sys.Step.nft (S := sys p me honest) _ coll tok a.seller [] me hh (C31_custody hl h ha hh)
    (Or.inl rfl)), ?_, ?_, ?_, rfl⟩
  · show (w.st.auctions.erase a.key).get? _ = none
    rw [hg.key, AMap.get?_erase_self]
  · intro k hne
    show (w.st.auctions.erase a.key).get? _ = _
    rw [hg.key, AMap.get?_erase]
    exact if_neg (fun e => hne e.symm)
  · simp [setOwner]

example := C63_cancel Sample.libOk Sample.run3 (coll := Sample.coll) (tok := Sample.tok)
  (a := ⟨Sample.coll, Sample.tok, Sample.alice, ⟨Sample.ust, 100⟩, 60, none, none, none, none⟩) (by decide +kernel) trivial rfl
  (Sample.qw Sample.w3) (fun _ _ _ => rfl)

/-! ### C64 -/

/-- Exact accounting of every call other than creation, and of every hook: what comes in plus the change of the standing
bids is what goes out. -/
theorem C64_call (hl : LibOk p.lib) {s s' : State} {ctx : Ctx} {sender : Addr} {funds : List Coin} {m : Exec} {msgs : List Msg}
    (hr : Reach p me s) (h : execute p ctx sender funds m s = .ok (s', msgs)) (hm : ∀ c t r d x, m ≠ .create c t r d x) (d : Denom) :
    paidOut d msgs + amountOf d (highBids s') = amountOf d funds + amountOf d (highBids s) := by
  have h1 := conservation hl hr.wf (execute_eff h) d
  have h2 : kept s funds m d = 0 := by
    cases m with
    | create c t r d' x => exact absurd rfl (hm c t r d' x)
    | _ => rfl
  rw [h2, escrow_eq, escrow_eq] at h1
  omega

theorem C64_hook (hl : LibOk p.lib) {s s' : State} {ctx : Ctx} {m : Sudo} {msgs : List Msg} (hr : Reach p me s)
    (h : sudo p ctx m s = .ok (s', msgs)) (d : Denom) :
    paidOut d msgs + amountOf d (highBids s') = amountOf d (highBids s) := by
  have h1 := sudo_conservation hl hr.wf (sudo_eff h) d
  rw [escrow_eq, escrow_eq] at h1
  exact h1

example : Sample.ok (Sample.ctx 1080000) Sample.bob [] (.settle Sample.coll Sample.tok) Sample.s4 = true ∧
    amountOf Sample.ust (highBids Sample.s4) = 120 ∧ amountOf Sample.ust (highBids Sample.s5) = 0 := by decide +kernel

/-! ### C65 -/

/-- The high bidder of an auction is never its seller nor the contract; the contract is never a seller. -/
theorem C65_bidder {s : State} (hr : Reach p me s) {k : Key} {a : Auction} (ha : s.auctions.get? k = some a) :
    a.seller ≠ me ∧ ∀ b, a.highBid = some b → b.bidder ≠ a.seller ∧ b.bidder ≠ me :=
  ⟨(hr.wf.auctions _ _ ha).seller, fun b hb => ((hr.wf.auctions _ _ ha).coin b hb).2.2⟩

example : Sample.ok (Sample.ctx 1000000) Sample.alice [⟨Sample.ust, 100⟩] (.bid Sample.coll Sample.tok) Sample.s2 = false ∧
    (Sample.s3.auctions.get? (Sample.coll, Sample.tok)).map (fun a => a.highBid) = some (some ⟨⟨Sample.ust, 100⟩, Sample.bob⟩) := by
  decide +kernel

end Verif.Auction

/-
Reserve auction: calls and hooks that must go through (C86, C87, C88).
-/
import Verif.Auction.PropsFunds
import Verif.Base.Drain

namespace Verif.Auction
open Verif Spec

section
variable {p : Params} {me : Addr} {honest : Addr → Prop}

/-! ### C86 an accepted call or hook completes -/

theorem pay_tokens {ms : List Msg} (h : ∀ m ∈ ms, IsPayment m) : ms.filterMap Msg.token = [] := by
  rw [List.filterMap_eq_nil_iff]
  intro m hm
  have := h m hm
  cases m <;> first | rfl | exact this.elim

theorem Settled.tokens {ctx : Ctx} {a : Auction} {c : Config} {ws : List HaltWindow} {s s' : State} {ms : List Msg}
    (hl : LibOk p.lib) (h : Settled p ctx a c ws s s' ms) : (ms.filterMap Msg.token).Sublist [a.key] := by
  cases h with
  | postponed => exact List.nil_sublist _
  | sold e b roy pay _ _ _ _ _ hpay =>
    rw [List.filterMap_append, pay_tokens (hl.pays _ _ _ _ _ _ hpay)]
    exact List.Sublist.refl _

theorem Batch.tokens {ctx : Ctx} {c : Config} {ws : List HaltWindow} {as : List Auction} {s s' : State} {ms : List Msg}
    (hl : LibOk p.lib) (h : Batch p ctx c ws as s s' ms) : (ms.filterMap Msg.token).Sublist (as.map Auction.key) := by
  induction h with
  | nil => exact List.Sublist.refl _
  | cons h1 _ ih =>
    rw [List.filterMap_append, List.map_cons]
    exact (h1.tokens hl).append ih

/-- Messages are payments or move a token. -/
def Plain (m : Msg) : Prop := IsPayment m ∨ ∃ c t to, m = .nft c t to

theorem Settled.plain {ctx : Ctx} {a : Auction} {c : Config} {ws : List HaltWindow} {s s' : State} {ms : List Msg}
    (hl : LibOk p.lib) (h : Settled p ctx a c ws s s' ms) : ∀ m ∈ ms, Plain m := by
  cases h with
  | postponed => intro m hm; cases hm
  | sold e b roy pay _ _ _ _ _ hpay =>
    intro m hm
    rw [List.mem_append, List.mem_singleton] at hm
    rcases hm with hm | rfl
    · exact Or.inl (hl.pays _ _ _ _ _ _ hpay m hm)
    · exact Or.inr ⟨_, _, _, rfl⟩

theorem Batch.plain {ctx : Ctx} {c : Config} {ws : List HaltWindow} {as : List Auction} {s s' : State} {ms : List Msg}
    (hl : LibOk p.lib) (h : Batch p ctx c ws as s s' ms) : ∀ m ∈ ms, Plain m := by
  induction h with
  | nil => intro m hm; cases hm
  | cons h1 _ ih =>
    intro m hm
    rcases List.mem_append.mp hm with hm | hm
    · exact h1.plain hl m hm
    · exact ih m hm

/-- Messages of a call: at most one token moves, that of the call; if it is not a creation, there is an auction for it. -/
theorem call_msgs (hl : LibOk p.lib) {ctx : Ctx} {sender : Addr} {funds : List Coin} {m : Exec} {s s' : State} {msgs : List Msg}
    (hw : WF p me s) (h : Eff p ctx sender funds s m s' msgs) :
    (∀ y ∈ msgs, Plain y) ∧ (msgs.filterMap Msg.token).Sublist [keyOf m] ∧
    ((∃ c t r d x, m = .create c t r d x) ∨ msgs.filterMap Msg.token = [] ∨ s.auctions.get? (keyOf m) ≠ none) := by
  cases h with
  | create coll tok r dur rec min =>
    refine ⟨?_, ?_, Or.inl ⟨_, _, _, _, _, rfl⟩⟩
    · intro y hy
      rw [List.mem_append, List.mem_singleton] at hy
      rcases hy with hy | rfl
      · unfold feeMsgs at hy
        split at hy
        · cases hy
        · rw [List.mem_singleton] at hy; subst hy; exact Or.inl trivial
      · exact Or.inr ⟨_, _, _, rfl⟩
    · have : (feeMsgs s.config).filterMap Msg.token = [] := by
        unfold feeMsgs; split <;> rfl
      rw [List.filterMap_append, this]
      exact List.Sublist.refl _
  | reserve => exact ⟨by simp, List.nil_sublist _, Or.inr (Or.inl rfl)⟩
  | cancel coll tok a hv hf ha hs hb =>
    refine ⟨?_, List.Sublist.refl _, Or.inr (Or.inr (by
      rw [show keyOf (.cancel coll tok) = (coll, tok) from rfl, ha]; simp))⟩
    intro y hy
    rw [List.mem_singleton] at hy
    subst hy; exact Or.inr ⟨_, _, _, rfl⟩
  | bid1 => exact ⟨by simp, List.nil_sublist _, Or.inr (Or.inl rfl)⟩
  | bid2 coll tok a n m f e e' h hv ha hs hfunds hpos hm hge hend hb hh hz =>
    refine ⟨?_, List.nil_sublist _, Or.inr (Or.inl rfl)⟩
    intro y hy
    rw [List.mem_singleton] at hy
    subst hy
    refine Or.inl ⟨by simp, ?_⟩
    intro c hc
    rw [List.mem_singleton] at hc
    subst hc
    exact Nat.pos_of_ne_zero hz
  | settle coll tok a _ _ hv hf ha hs =>
    refine ⟨hs.plain hl, ?_, Or.inr (Or.inr (by
      rw [show keyOf (.settle coll tok) = (coll, tok) from rfl, ha]; simp))⟩
    have := hs.tokens hl
    rwa [(hw.auctions _ _ ha).key] at this

/-- Execute the messages that a step has put on the empty stack. -/
theorem finish (hl : LibOk p.lib) {w : World State} {msgs : List Msg} (h : Run p me honest (w, msgs))
    (hp : ∀ m ∈ msgs, Plain m) (hnd : (msgs.filterMap Msg.token).Nodup)
    (hn : ∀ c t, (c, t) ∈ msgs.filterMap Msg.token → honest c ∧ ∃ o, w.owner c t = some o ∧ (o = me ∨ w.approved c t = true)) :
    ∃ w', (sys p me honest).Steps (w, msgs) (w', []) ∧ w'.st = w.st ∧
      (∀ x d, x ≠ me → w'.bank x d = w.bank x d + gets x d msgs) ∧
      (∀ c t to, Msg.nft c t to ∈ msgs → w'.owner c t = some to) ∧
      (∀ c t, (∀ to, Msg.nft c t to ∉ msgs) → w'.owner c t = w.owner c t) := by
  have key := Sys.drain (S := sys p me honest) msgs [] w ?_ hnd ?_
  · obtain ⟨w', hst, e1, -, -, -, b1, -, o1, o2⟩ := key
    rw [List.append_nil] at hst
    exact ⟨w', hst, e1, b1, o1, o2⟩
  · intro m hm
    rcases hp m hm with h1 | ⟨c, t, to, rfl⟩
    · cases m <;> first | exact h1 | trivial | exact h1.elim
    · exact hn c t (mem_tokens.mpr ⟨to, hm⟩)
  · intro d
    exact Nat.le_trans (Nat.le_add_left _ _) (Spec.Run.solvent hl h d)

/-- Once the contract accepts a call, all its messages are executed: no payment fails for lack of funds or because it is
empty, and no transfer of a token of a conforming collection fails. The only condition is, for the creation of an
auction, that the token exists and the contract may transfer it. Afterwards every account other than the contract has
what it had, less the attached funds, plus what was sent to it, and tokens have moved as the messages say. -/
theorem C86_call (hl : LibOk p.lib) {w : World State} (h : Run p me honest (w, [])) {q : Queries}
    (hq : (sys p me honest).queriesOk w q) {sender : Addr} {funds : List Coin} {m : Exec} {s' : State} {msgs : List Msg}
    (hne : sender ≠ me) (hfunds : ∀ d, amountOf d funds ≤ w.bank sender d)
    (hx : execute p ((sys p me honest).ctx w q) sender funds m w.st = .ok (s', msgs))
    (hh : ∀ c t to, Msg.nft c t to ∈ msgs → honest c)
    (hcr : ∀ c t r d x, m = .create c t r d x → w.owner c t ≠ none ∧ w.approved c t = true) :
    ∃ w', (sys p me honest).Steps (w, []) (w', []) ∧ w'.st = s' ∧
      (∀ x d, x ≠ me → w'.bank x d + (if x = sender then amountOf d funds else 0) = w.bank x d + gets x d msgs) ∧
      (∀ c t to, Msg.nft c t to ∈ msgs → w'.owner c t = some to) ∧
      (∀ c t, (∀ to, Msg.nft c t to ∉ msgs) → w'.owner c t = w.owner c t) := by
  have hr := Spec.Run.reach h
  have h1 := Sys.Step.call (S := sys p me honest) w [] sender funds m q s' msgs trivial hne hfunds hq hx
  have hrun := Spec.Run.step h h1
  rw [List.append_nil] at h1 hrun
  obtain ⟨k1, k2, k3⟩ := call_msgs hl hr.wf (execute_eff hx)
  obtain ⟨w', hst, e1, b1, o1, o2⟩ := finish hl hrun k1 (k2.nodup (by simp)) (by
    intro c t hct
    have hk : (c, t) = keyOf m := by simpa using k2.subset hct
    have hh' : honest c := by
      obtain ⟨to, hto⟩ := mem_tokens.mp hct
      exact hh c t to hto
    refine ⟨hh', ?_⟩
    rcases k3 with ⟨c', t', r, d, x, rfl⟩ | k3 | k3
    · cases hk
      obtain ⟨y1, y2⟩ := hcr _ _ _ _ _ rfl
      cases ho : w.owner c t with
      | none => exact absurd ho y1
      | some o => exact ⟨o, rfl, Or.inr y2⟩
    · rw [k3] at hct; cases hct
    · rw [← hk] at k3
      cases ha : w.st.auctions.get? (c, t) with
      | none => exact absurd ha k3
      | some a => exact ⟨me, C31_custody hl h ha hh', Or.inl rfl⟩)
  refine ⟨w', (Sys.Steps.single h1).trans hst, e1, ?_, o1, o2⟩
  intro x d hxm
  rw [b1 x d hxm]
  show moveFunds w.bank sender me funds x d + _ + _ = _
  by_cases e : x = sender
  · subst e
    rw [moveFunds_from hxm, if_pos rfl]
    have := hfunds d
    omega
  · rw [moveFunds_other e hxm, if_neg e]; omega

/-- The same for the hooks of the chain, if all tokens under auction are of conforming collections: once a hook
succeeds, all payments and transfers of the batch are executed. -/
theorem C86_hook (hl : LibOk p.lib) {w : World State} (h : Run p me honest (w, [])) {q : Queries}
    (hq : (sys p me honest).queriesOk w q) {m : Sudo} {s' : State} {msgs : List Msg}
    (hx : sudo p ((sys p me honest).ctx w q) m w.st = .ok (s', msgs))
    (hh : ∀ k, w.st.auctions.get? k ≠ none → honest k.1) :
    ∃ w', (sys p me honest).Steps (w, []) (w', []) ∧ w'.st = s' ∧
      (∀ x d, x ≠ me → w'.bank x d = w.bank x d + gets x d msgs) ∧
      (∀ c t to, Msg.nft c t to ∈ msgs → w'.owner c t = some to) ∧
      (∀ c t, (∀ to, Msg.nft c t to ∉ msgs) → w'.owner c t = w.owner c t) := by
  have hr := Spec.Run.reach h
  have h1 := Sys.Step.sudo (S := sys p me honest) w m q s' msgs hq hx
  have hrun := Spec.Run.step h h1
  have key : (∀ y ∈ msgs, Plain y) ∧ (msgs.filterMap Msg.token).Nodup ∧
      ∀ k ∈ msgs.filterMap Msg.token, w.st.auctions.get? k ≠ none := by
    cases sudo_eff hx with
    | stop _ _ _ _ _ hb =>
      have hst := due_stored (ctx := (sys p me honest).ctx w q) hr.wf
      have hsub := hb.tokens hl
      refine ⟨hb.plain hl, hsub.nodup hst.2, ?_⟩
      intro k hk
      obtain ⟨a, ha, rfl⟩ := List.mem_map.mp (hsub.subset hk)
      rw [hst.1 a ha]; simp
    | _ => exact ⟨by simp, by simp, by simp⟩
  obtain ⟨k1, k2, k3⟩ := key
  obtain ⟨w', hst, e1, b1, o1, o2⟩ := finish hl hrun k1 k2 (by
    intro c t hct
    have h3 := k3 _ hct
    refine ⟨hh _ h3, me, ?_, Or.inl rfl⟩
    cases ha : w.st.auctions.get? (c, t) with
    | none => exact absurd ha h3
    | some a => exact C31_custody hl h ha (hh (c, t) h3))
  exact ⟨w', (Sys.Steps.single h1).trans hst, e1, b1, o1, o2⟩

namespace Sample
/-- carol outbids bob; anyone settles; the hook settles -/
example := C86_call libOk run4 (fun _ _ _ => rfl) (by decide) (ust_only (by decide +kernel))
  (run_eq (c := M.ctx w4 (qw w4)) (sender := carol) (funds := [⟨ust, 120⟩]) (m := .bid coll tok) (s := w4.st) (by decide +kernel))
  (fun _ _ _ _ => trivial) (by intro c t r d x h; cases h)
example := C86_call libOk run6 (fun _ _ _ => rfl) (by decide) (fun _ => Nat.zero_le _)
  (run_eq (c := M.ctx w6 (qw w6)) (sender := carol) (funds := []) (m := .settle coll tok) (s := w6.st) (by decide +kernel))
  (fun _ _ _ _ => trivial) (by intro c t r d x h; cases h)
example := C86_hook libOk run6 (fun _ _ _ => rfl)
  (srun_eq (c := M.ctx w6 (qw w6)) (m := .endBlock) (s := w6.st) (by decide +kernel)) (fun _ _ => trivial)
example : (srun (M.ctx w6 (qw w6)) .endBlock w6.st).2 =
    [.fairBurn [⟨ust, 2⟩], .send artist [⟨ust, 5⟩], .send alice [⟨ust, 93⟩], .nft coll tok bob] := by decide +kernel
end Sample

/-! ### C87 a sufficient bid is accepted -/

theorem raised_ceil (n x : Nat) : raised n x = ceilDiv (n * (ONE + x)) ONE := (raised_eq n x).symm

theorem bid_no_nft {ctx : Ctx} {sender : Addr} {funds : List Coin} {coll tok : Bytes} {s s' : State} {msgs : List Msg}
    (h : Eff p ctx sender funds s (.bid coll tok) s' msgs) (c : Addr) (t : Bytes) (to : Addr) : Msg.nft c t to ∉ msgs := by
  cases h <;> simp

/-- Before an auction has ended, everyone except the seller can bid: an attached amount of the auction's denom that is
positive and at least the minimum is accepted and the call completes; the caller is the high bidder. (`hov`: the new end
time is representable.) -/
theorem C87_bid (hl : LibOk p.lib) {w : World State} (h : Run p me honest (w, [])) {q : Queries}
    (hq : (sys p me honest).queriesOk w q) {coll tok : Bytes} {a : Auction} {sender : Addr} {n : Nat}
    (ha : w.st.auctions.get? (coll, tok) = some a) (hne : sender ≠ me) (hs : sender ≠ a.seller)
    (hbal : n ≤ w.bank sender a.reserve.denom) (hpos : 0 < n) (hn : n < 2^128)
    (h1 : a.highBid = none → a.reserve.amount ≤ n)
    (h2 : ∀ b, a.highBid = some b → raised b.coin.amount w.st.config.minBidIncrement ≤ n)
    (hend : ∀ e, a.endTime = some e → sec w.time < sec e)
    (hov : w.time + (max a.duration w.st.config.extendDuration) * 1000000000 < 2^64) :
    ∃ s' msgs, execute p ((sys p me honest).ctx w q) sender [⟨a.reserve.denom, n⟩] (.bid coll tok) w.st = .ok (s', msgs) ∧
      ∃ w' a', (sys p me honest).Steps (w, []) (w', []) ∧ w'.st = s' ∧ s'.auctions.get? (coll, tok) = some a' ∧
        a'.highBid = some ⟨⟨a.reserve.denom, n⟩, sender⟩ ∧ w'.owner coll tok = w.owner coll tok := by
  have hr := Spec.Run.reach h
  have hg := hr.wf.auctions _ _ ha
  have hk : a.collection = coll ∧ a.tokenId = tok := by
    have := hg.key; unfold Auction.key at this; cases this; exact ⟨rfl, rfl⟩
  have hv : p.valid coll = true := by have := hg.valid; rwa [hk.1] at this
  have hpay : mustPay [⟨a.reserve.denom, n⟩] a.reserve.denom = .ok n := mustPay_ok.mpr ⟨rfl, hpos⟩
  have hone : ONE + w.st.config.minBidIncrement ≤ U128MAX := by
    have : w.st.config.minBidIncrement < ONE := (validate_ok hr.wf.config).2.1
    have h1 : ONE + ONE ≤ U128MAX := by decide
    omega
  obtain ⟨m, hm, hmn⟩ : ∃ m, a.minBid w.st.config.minBidIncrement = .ok m ∧ m ≤ n := by
    unfold Auction.minBid
    cases hb : a.highBid with
    | none => exact ⟨_, rfl, h1 hb⟩
    | some b =>
      have h3 := h2 b hb
      rw [raised_ceil] at h3
      refine ⟨_, ?_, h3⟩
      rw [bind_ok]
      refine ⟨_, u128_ok.mpr ⟨hone, rfl⟩, mulCeil_ok.mpr ⟨Nat.le_trans h3 (Nat.le_of_lt_succ hn), rfl⟩⟩
  have hge : hasCoins [⟨a.reserve.denom, n⟩] ⟨a.reserve.denom, m⟩ = true := hasCoins_single.mpr ⟨rfl, hmn⟩
  have hov1 : w.time + a.duration * NS ≤ U64MAX :=
    Nat.le_of_lt_succ (Nat.lt_of_le_of_lt (Nat.add_le_add_left (Nat.mul_le_mul_right _ (Nat.le_max_left _ _)) _) hov)
  have hov2 : w.time + w.st.config.extendDuration * NS ≤ U64MAX :=
    Nat.le_of_lt_succ (Nat.lt_of_le_of_lt (Nat.add_le_add_left (Nat.mul_le_mul_right _ (Nat.le_max_right _ _)) _) hov)
  obtain ⟨r, hr2⟩ : ∃ r, bidTimes ((sys p me honest).ctx w q) a w.st.config = .ok r := by
    unfold bidTimes
    cases hf : a.firstBid with
    | none =>
      exact ⟨_, by
        simp only [bind_ok]
        exact ⟨_, plusSeconds_ok.mpr ⟨hov1, rfl⟩, rfl⟩⟩
    | some f =>
      cases hb : a.highBid with
      | none => have := hg.first.mpr (hg.high.mp hb); rw [hf] at this; cases this
      | some b =>
        cases he : a.endTime with
        | none => have := hg.high.mpr he; rw [hb] at this; cases this
        | some e =>
          have hp := (hg.coin b hb).2.1
          have hlt : secs w.time < secs e := hend e he
          obtain ⟨e', he'⟩ : ∃ e', (if secs e - secs w.time < w.st.config.extendDuration then
              plusSeconds w.time w.st.config.extendDuration else .ok e) = .ok e' := by
            split
            · exact ⟨_, plusSeconds_ok.mpr ⟨hov2, rfl⟩⟩
            · exact ⟨_, rfl⟩
          refine ⟨(f, e', [.send b.bidder [b.coin]]), ?_⟩
          simp only [bind_ok, orErr_ok]
          exact ⟨b, rfl, (), ensure_ok.mpr (by omega), e, rfl, _, subChk_ok.mpr ⟨Nat.le_of_lt hlt, rfl⟩, e', he', rfl⟩
  have hx : execute p ((sys p me honest).ctx w q) sender [⟨a.reserve.denom, n⟩] (.bid coll tok) w.st =
      .ok ({ w.st with auctions := w.st.auctions.insert a.key { a with
        firstBid := some r.1, endTime := some r.2.1, highBid := some ⟨⟨a.reserve.denom, n⟩, sender⟩ } }, r.2.2) := by
    simp only [execute, executeBid, bind_ok, addrValidate_ok, ensure_ok, orErr_ok]
    exact ⟨coll, ⟨hv, rfl⟩, a, ha, n, hpay, (), fun e => hs e.symm, m, hm, (), hge, (), hend, r, hr2, rfl⟩
  refine ⟨_, _, hx, ?_⟩
  obtain ⟨w', k1, k2, -, -, k5⟩ := C86_call hl h hq hne (by
      intro d
      simp only [amountOf, Coin.inDenom]
      split
      case isTrue e => subst e; simpa using hbal
      case isFalse => exact Nat.zero_le _) hx
    (fun c t to hm => absurd hm (bid_no_nft (execute_eff hx) c t to))
    (by intro c t r d x h; cases h)
  exact ⟨w', _, k1, k2, by rw [hg.key, AMap.get?_insert_self], rfl, k5 _ _ (bid_no_nft (execute_eff hx) _ _)⟩

/-- carol's 105 is just enough after bob's 100; the first bid may equal the reserve price -/
example := C87_bid Sample.libOk Sample.run4 (q := Sample.qw Sample.w4) (fun _ _ _ => rfl) (coll := Sample.coll) (tok := Sample.tok)
  (a := ⟨Sample.coll, Sample.tok, Sample.alice, ⟨Sample.ust, 100⟩, 60, some 1060000000000, none, some ⟨⟨Sample.ust, 100⟩, Sample.bob⟩,
    some 1000000000000⟩) (sender := Sample.carol) (n := 105) (by decide +kernel) (by decide) (by decide) (by decide +kernel) (by decide)
  (by decide) (by intro h; cases h) (by intro b h; cases h; decide +kernel) (by intro e h; cases h; decide +kernel) (by decide +kernel)
example := C87_bid Sample.libOk Sample.run3 (q := Sample.qw Sample.w3) (fun _ _ _ => rfl) (coll := Sample.coll) (tok := Sample.tok)
  (a := ⟨Sample.coll, Sample.tok, Sample.alice, ⟨Sample.ust, 100⟩, 60, none, none, none, none⟩)
  (sender := Sample.carol) (n := 100) (by decide +kernel) (by decide) (by decide) (by decide +kernel) (by decide)
  (by decide) (fun _ => by decide) (by intro b h; cases h) (by intro e h; cases h) (by decide +kernel)

/-! ### C88 an owner can create an auction -/

/-- The library's checks pass when they should: the caller is the reported owner, the contract is reported as approved,
and no later start of trading is reported. -/
structure Spec.LibGrants (l : Lib) : Prop where
  owner : ∀ ctx sender coll tok, ctx.q.ownerOf coll tok = some sender → l.onlyOwner ctx sender coll tok = .ok ()
  approved : ∀ ctx coll tok, ctx.q.approval coll tok = true → l.hasApproval ctx coll tok = .ok ()
  tradable : ∀ ctx coll, (∀ i t, ctx.q.collInfo coll = some i → i.start = some t → t ≤ ctx.time) → l.onlyTradable ctx coll = .ok ()

theorem Sample.libGrants : LibGrants Sample.P.lib where
  owner ctx sender coll tok h := ensure_ok.mpr h
  approved ctx coll tok h := ensure_ok.mpr h
  tradable ctx coll h := by
    show lib0.onlyTradable ctx coll = .ok ()
    unfold lib0
    simp only
    split
    case h_1 t r hi => exact ensure_ok.mpr (h _ t hi rfl)
    · rfl

/-- The owner of a token of a conforming collection who has approved the contract can put it up for auction by attaching
exactly the fee (nothing if it is zero), once trading has started and if there is no auction for it, with any accepted
reserve price and duration. The call completes: the contract holds the token and the auction is open. -/
theorem C88_create (hl : LibOk p.lib) (hg : LibGrants p.lib) {w : World State} (h : Run p me honest (w, [])) {q : Queries}
    (hq : (sys p me honest).queriesOk w q) {coll tok : Bytes} {sender : Addr} {r : Coin} {d : Nat} {rec : Option Bytes} {funds : List Coin}
    (hh : honest coll) (hne : sender ≠ me) (hown : w.owner coll tok = some sender) (happ : w.approved coll tok = true)
    (hqa : q.approval coll tok = true) (htr : ∀ i t, q.collInfo coll = some i → i.start = some t → t ≤ w.time)
    (hno : w.st.auctions.get? (coll, tok) = none) (hv : p.valid coll = true) (hrec : ∀ a, rec = some a → p.valid a = true)
    (hmin : ∃ m, w.st.minReserve.get? r.denom = some m ∧ m ≤ r.amount)
    (hdur : w.st.config.minDuration ≤ d ∧ d ≤ w.st.config.maxDuration)
    (hfee : funds = if w.st.config.createFee.amount = 0 then [] else [w.st.config.createFee])
    (hbal : w.st.config.createFee.amount ≤ w.bank sender w.st.config.createFee.denom) :
    ∃ w' a, (sys p me honest).Steps (w, []) (w', []) ∧ w'.owner coll tok = some me ∧
      w'.st.auctions.get? (coll, tok) = some a ∧ a.seller = sender ∧ a.reserve = r ∧ a.duration = d ∧ a.recipient = rec := by
  obtain ⟨m, hm1, hm2⟩ := hmin
  have hx : ∃ s' msgs, execute p ((sys p me honest).ctx w q) sender funds (.create coll tok r d rec) w.st = .ok (s', msgs) ∧
      s' = { w.st with auctions := w.st.auctions.insert (coll, tok) ⟨coll, tok, sender, r, d, none, rec, none, none⟩ } ∧
      msgs = feeMsgs w.st.config ++ [.nft coll tok me] := by
    have h1 : maybeAddr p rec = .ok rec := by
      unfold maybeAddr
      cases rec with
      | none => rfl
      | some a => simp [addrValidate, hrec a rfl, bind, Except.bind]
    have h2 : validateReserve w.st r = .ok () := by
      unfold validateReserve; rw [hm1]; exact ensure_ok.mpr hm2
    have h3 : (if w.st.config.createFee.amount = 0 then nonpayable funds >>= fun _ => Except.ok []
        else ensure (hasCoins funds w.st.config.createFee = true) .wrongFee >>= fun _ =>
          .ok [.fairBurn [w.st.config.createFee]]) = .ok (feeMsgs w.st.config) := by
      unfold feeMsgs
      split
      case isTrue e => rw [if_pos e] at hfee; subst hfee; rfl
      case isFalse e =>
        rw [if_neg e] at hfee; subst hfee
        rw [bind_ok]
        exact ⟨(), ensure_ok.mpr (hasCoins_single.mpr ⟨rfl, Nat.le_refl _⟩), rfl⟩
    refine ⟨_, _, ?_, rfl, rfl⟩
    simp only [execute, executeCreate, bind_ok, addrValidate_ok, ensure_ok]
    exact ⟨coll, ⟨hv, rfl⟩, rec, h1, (), hg.owner _ _ _ _ ((hq coll tok hh).trans hown), (), hg.approved _ _ _ hqa, (), hno, (),
      hg.tradable _ _ htr, (), h2, (), hdur, _, h3, rfl⟩
  obtain ⟨s', msgs, hx, hs', hmsgs⟩ := hx
  obtain ⟨w', k1, k2, -, k4, -⟩ := C86_call hl h hq hne (by
      intro x
      rw [hfee]
      split
      · exact Nat.zero_le _
      · simp only [amountOf, Coin.inDenom]
        split
        case isTrue e => subst e; simpa using hbal
        case isFalse => exact Nat.zero_le _) hx
    (by
      intro c t to hm
      rw [hmsgs, List.mem_append, List.mem_singleton] at hm
      rcases hm with hm | hm
      · unfold feeMsgs at hm
        split at hm
        · cases hm
        · rw [List.mem_singleton] at hm; cases hm
      · cases hm; exact hh)
    (by intro c t r d x h; cases h; exact ⟨by rw [hown]; simp, happ⟩)
  refine ⟨w', ⟨coll, tok, sender, r, d, none, rec, none, none⟩, k1, k4 _ _ _ (by rw [hmsgs]; simp), ?_, rfl, rfl, rfl, rfl⟩
  rw [k2, hs']
  exact AMap.get?_insert_self _ _ _

example := C88_create Sample.libOk Sample.libGrants Sample.run0 (q := Sample.qw Sample.w0) (fun _ _ _ => rfl) (coll := Sample.coll)
  (tok := Sample.tok) (sender := Sample.alice) (r := ⟨Sample.ust, 10⟩) (d := 1000) (rec := some Sample.carol) (funds := [⟨Sample.ust, 5⟩])
  trivial (by decide) (by decide +kernel) rfl rfl
  (by intro i t h ht; cases h; cases ht)
  (by decide +kernel) (by decide) (by intro a h; cases h; decide) ⟨10, by decide +kernel, by decide⟩ (by decide +kernel)
  (by decide +kernel) (by decide +kernel)

end
end Verif.Auction

/-
Properties C116, C117: migrations.
-/
import Verif.Common.Migrate
import Verif.V1.Sample
import Verif.V2.PropsEvents
import Verif.Auction.PropsEvents

namespace Verif
open Spec

theorem parses {bs : Bytes} {v : Nat × Nat × Nat} (h : readVersion bs = some v) : numbered.parse bs = some v := h

/-! ### Marketplace v1 -/

namespace V1
open Spec

section
variable {sv : Semver} {new : Info} {r r' : Option Info}

theorem migrate_ok : migrate sv new r = .ok r' ↔
    ∃ i v w, r = some i ∧ i.name = new.name ∧ sv.parse i.version = some v ∧ sv.parse new.version = some w ∧
      sv.lt w v = false ∧ ((v = w ∧ r' = some i) ∨ (v ≠ w ∧ r' = some new)) := by
  unfold migrate
  simp only [bind_ok, orErr_ok, ensure_ok]
  constructor
  · rintro ⟨i, rfl, _, hn, v, hv, w, hw, h⟩
    split at h
    · cases h
    case isFalse hlt =>
      refine ⟨i, v, w, rfl, hn, hv, hw, Bool.eq_false_iff.mpr hlt, ?_⟩
      split at h
      case isTrue he => cases h; exact .inl ⟨@of_decide_eq_true _ (sv.eq v w) he, rfl⟩
      case isFalse he =>
        cases h
        exact .inr ⟨fun e => he (@decide_eq_true _ (sv.eq v w) e), rfl⟩
  · rintro ⟨i, v, w, rfl, hn, hv, hw, hlt, h⟩
    refine ⟨i, rfl, (), hn, v, hv, w, hw, ?_⟩
    rw [if_neg (by simp [hlt])]
    rcases h with ⟨he, rfl⟩ | ⟨hne, rfl⟩
    · rw [if_pos (@decide_eq_true _ (sv.eq v w) he)]
    · rw [if_neg (fun h => hne (@of_decide_eq_true _ (sv.eq v w) h))]

/-- **C116** (1) A migration goes through exactly if the record names the same contract and a version that is not later
than that of the new code. -/
theorem C116_accepts (hs : sv.Ok) : (∃ r', migrate sv new r = .ok r') ↔
    ∃ i, r = some i ∧ i.name = new.name ∧ NotOlder sv i.version new.version := by
  constructor
  · rintro ⟨r', h⟩
    obtain ⟨i, v, w, h1, h2, h3, h4, h5, h6⟩ := migrate_ok.mp h
    refine ⟨i, h1, h2, v, w, h3, h4, ?_⟩
    rcases hs.total v w with h | h | h
    · exact .inr h
    · exact .inl h
    · rw [h5] at h; cases h
  · rintro ⟨i, rfl, hn, v, w, hv, hw, h⟩
    have hlt : sv.lt w v = false := by
      rcases h with rfl | h
      · exact hs.irrefl _
      · rw [Bool.eq_false_iff]
        intro hc
        have := hs.trans _ _ _ h hc
        rw [hs.irrefl] at this
        cases this
    by_cases he : v = w
    · exact ⟨_, migrate_ok.mpr ⟨i, v, w, rfl, hn, hv, hw, hlt, .inl ⟨he, rfl⟩⟩⟩
    · exact ⟨_, migrate_ok.mpr ⟨i, v, w, rfl, hn, hv, hw, hlt, .inr ⟨he, rfl⟩⟩⟩

theorem migrate_record (h : migrate sv new r = .ok r') :
    ∃ j, r' = some j ∧ j.name = new.name ∧ sv.parse j.version = sv.parse new.version := by
  obtain ⟨i, v, w, rfl, h2, h3, h4, _, ⟨rfl, h⟩ | ⟨_, h⟩⟩ := migrate_ok.mp h
  · exact ⟨i, h, h2, h3.trans h4.symm⟩
  · exact ⟨new, h, rfl, rfl⟩

/-- **C116** (2) In the whole life of a deployment the record names the contract and the version of the code that runs,
and the state is one the contract can reach without any migration. -/
theorem C116_life {p : Params} {self : Addr} {code : Info} {r : Option Info} {s : State}
    (h : Life (migrate sv) (fun s => ∃ i, instantiate p i = .ok s) (V1.Spec.Step p self) code r s) :
    (∃ j, r = some j ∧ j.name = code.name ∧ sv.parse j.version = sv.parse code.version) ∧ V1.Spec.Reach p self s := by
  induction h with
  | deploy code h =>
    obtain ⟨i, h⟩ := h
    exact ⟨⟨code, rfl, rfl, rfl⟩, i, _, h, .refl _⟩
  | step _ h ih =>
    obtain ⟨ih1, i, s0, h0, ha⟩ := ih
    exact ⟨ih1, i, s0, h0, .step ha h⟩
  | migrate _ h ih => exact ⟨migrate_record h, ih.2⟩

/-- **C116** (3) However often it is migrated, a deployment stays the same contract and never goes back to an earlier
version. -/
theorem C116_forward (hs : sv.Ok) {x y : Info × Option Info} {i : Info} (h : Migrations (migrate sv) x y)
    (hx : x.2 = some i) : ∃ j, y.2 = some j ∧ j.name = i.name ∧ (x = y ∨ NotOlder sv i.version j.version) := by
  induction h with
  | refl => exact ⟨i, hx, rfl, .inl rfl⟩
  | step hm h ih =>
    obtain ⟨j, hj, hn, hle⟩ := ih
    rw [hj] at h
    obtain ⟨i', v, w, e, h2, h3, h4, h5, h6⟩ := migrate_ok.mp h
    cases e
    obtain ⟨j', hj', _, v', w', e1, e2, h7⟩ := (C116_accepts hs).mp ⟨_, h⟩
    cases hj'
    rw [h3] at e1; cases e1
    rw [h4] at e2; cases e2
    obtain ⟨k, hk, hkn, hkv⟩ := migrate_record h
    refine ⟨k, hk, hkn.trans (h2.symm.trans hn), .inr ?_⟩
    rw [h4] at hkv
    rcases hle with rfl | ⟨u, v', e1, e2, h8⟩
    · rw [hx] at hj
      cases hj
      exact ⟨v, w, h3, hkv, h7⟩
    · rw [h3] at e2; cases e2
      refine ⟨u, w, e1, hkv, ?_⟩
      rcases h8 with rfl | h8
      · exact h7
      · rcases h7 with rfl | h7
        · exact .inr h8
        · exact .inr (hs.trans _ _ _ h8 h7)

end

namespace Sample

/-- A deployment of version 1.3.9 is migrated to the code in /repo, and to the same code again. -/
theorem life0 : Life (migrate numbered) (fun s => ∃ i, instantiate P i = .ok s) (V1.Spec.Step P self)
    ⟨code.name, txt "1.3.9"⟩ (some ⟨code.name, txt "1.3.9"⟩) s0 := .deploy _ ⟨_, init0⟩
theorem life1 : Life (migrate numbered) (fun s => ∃ i, instantiate P i = .ok s) (V1.Spec.Step P self) code (some code) s0 :=
  .migrate (.migrate life0 (new := code) (r' := some code) (by decide +kernel)) (by decide +kernel)
example : (∃ j, some code = some j ∧ j.name = code.name ∧ numbered.parse j.version = numbered.parse code.version) ∧
    V1.Spec.Reach P self s0 := C116_life life1
example : ∃ r', migrate numbered code (some ⟨code.name, txt "1.3.9"⟩) = .ok r' :=
  (C116_accepts numbered_ok).mpr ⟨_, rfl, rfl, (1, 3, 9), (1, 4, 0), parses (by decide +kernel), parses (by decide +kernel),
    .inr (by decide +kernel)⟩
/-- Refused: an earlier version, another contract, no record, a version that is none. -/
example : [some ⟨code.name, txt "1.10.0"⟩, some V2.code, none, some ⟨code.name, txt "new"⟩].map
    (fun r => (migrate numbered code r).isOk) = [false, false, false, false] := by decide +kernel
example : ∃ j, (some code : Option Info) = some j ∧ j.name = code.name ∧
    ((⟨code.name, txt "1.3.9"⟩, some ⟨code.name, txt "1.3.9"⟩) = (code, some code) ∨ NotOlder numbered (txt "1.3.9") j.version) :=
  C116_forward numbered_ok (x := (⟨code.name, txt "1.3.9"⟩, some ⟨code.name, txt "1.3.9"⟩)) (y := (code, some code))
    (.step (.refl _) (by decide +kernel)) rfl

end Sample
end V1

/-! ### Marketplace v2 -/

namespace V2
open Spec

/-- A successful call, in a state in which `G` holds. -/
def Works (p : Params) (self : Addr) (G : State → Prop) (s s' : State) : Prop :=
  G s ∧ ∃ ctx sender funds m msgs, ctx.self = self ∧ sender ≠ self ∧ execute p ctx sender funds m s = .ok (s', msgs)

/-- The life of a v2 deployment. -/
abbrev Lived (p : Params) (self : Addr) (G : State → Prop) : Info → Option Info → State → Prop :=
  Life migrate (fun s => ∃ c, instantiate p c = .ok s) (Works p self G)

/-- **C117** Wanted: code takes over a deployment only if that is of the same contract and not of a later version. -/
def C117_statement : Prop :=
  ∀ (p : Params) (self : Addr) (code new : Info) (r r' : Option Info) (s : State), Lived p self Any code r s →
    migrate new r = .ok r' → ∃ i, r = some i ∧ i.name = new.name ∧ NotOlder numbered i.version new.version

/-- **C117** is violated: the code in /repo takes over a deployment of version 0.8.0. -/
theorem C117_violated : ¬ C117_statement := by
  intro h
  obtain ⟨i, hi, _, v, w, hv, hw, hle⟩ := h Sample.P Sample.self ⟨code.name, txt "0.8.0"⟩ code _ _ _
    (.deploy _ ⟨_, Sample.init0⟩) rfl
  cases hi
  have e1 : numbered.parse (txt "0.8.0") = some (0, 8, 0) := parses (by decide +kernel)
  have e2 : numbered.parse code.version = some (0, 7, 0) := parses (by decide +kernel)
  rw [e1] at hv; cases hv
  rw [e2] at hw; cases hw
  rcases hle with h | h
  · cases h
  · revert h; decide +kernel

/-- It also takes over a deployment of marketplace v1, which in turn would not take over one of v2. -/
theorem C117_foreign : migrate code (some V1.code) = .ok (some code) ∧
    ∀ sv r', V1.migrate sv V1.code (some code) ≠ .ok r' := by
  refine ⟨rfl, fun sv r' h => ?_⟩
  obtain ⟨i, _, _, h1, h2, _⟩ := V1.migrate_ok.mp h
  cases h1
  revert h2
  decide +kernel

/-- **C117** (what holds) In the whole life of a deployment the record is exactly name and version of the code that runs, the
state is one the contract can reach without any migration, and no migration fails. -/
theorem C117_partial {p : Params} {self : Addr} {G : State → Prop} {code : Info} {r : Option Info} {s : State}
    (h : Lived p self G code r s) :
    r = some code ∧ Reach p self G s ∧ ∀ new, ∃ r', migrate new r = .ok r' := by
  refine ⟨?_, ?_, fun new => ⟨_, rfl⟩⟩
  · induction h with
    | deploy => rfl
    | step _ _ ih => exact ih
    | migrate _ h _ => cases h; rfl
  · induction h with
    | deploy _ h => obtain ⟨c, h⟩ := h; exact .init h
    | step _ h ih =>
      obtain ⟨hg, ctx, sender, funds, m, msgs, h1, h2, h3⟩ := h
      exact .call ih hg h1 h2 h3
    | migrate _ _ ih => exact ih

/-- **C117** (what holds) The first event ever names the code that was deployed, as recorded. -/
theorem C117_announced {p : Params} {code : Info} {self : Addr} {G : State → Prop} {s : State} {log : List Event}
    (h : Logged p code.name code.version self G s log) :
    ∃ e rest, log = e :: rest ∧ e.ty = "instantiate" ∧ e.get "contract_name" = some code.name ∧
      e.get "contract_version" = some code.version := by
  induction h with
  | init h =>
    simp only [instantiateE, bind_ok] at h
    obtain ⟨_, _, _, _, h⟩ := h
    cases h
    exact ⟨_, _, rfl, rfl, by simp [Event.get_mk], by simp [Event.get_mk]⟩
  | call _ _ _ _ _ ih =>
    obtain ⟨e, rest, rfl, h⟩ := ih
    exact ⟨e, _, rfl, h⟩

namespace Sample

/-- Deployed as 0.6.0 and migrated. -/
theorem life1 : Lived P self Any code (some code) s0 :=
  .migrate (code := ⟨code.name, txt "0.6.0"⟩) (.deploy _ ⟨_, init0⟩) rfl
example : some code = some code ∧ Reach P self Any s0 ∧ ∀ new, ∃ r', migrate new (some code) = .ok r' := C117_partial life1

end Sample
end V2

/-! ### Reserve auction -/

namespace Auction
open Spec

/-- The life of an auction deployment. -/
abbrev Lived (p : Params) (self : Addr) : Info → Option Info → State → Prop :=
  Life migrate (fun s => ∃ c mins, instantiate p c mins = .ok s) (Step p self)

/-- **C117** Wanted: code takes over a deployment only if that is of the same contract and not of a later version. -/
def C117_statement : Prop :=
  ∀ (p : Params) (self : Addr) (code new : Info) (r r' : Option Info) (s : State), Lived p self code r s →
    migrate new r = .ok r' → ∃ i, r = some i ∧ i.name = new.name ∧ NotOlder numbered i.version new.version

/-- **C117** is violated: the code in /repo takes over a deployment of version 1.1.0. -/
theorem C117_violated : ¬ C117_statement := by
  intro h
  obtain ⟨i, hi, _, v, w, hv, hw, hle⟩ := h Sample.P Sample.self ⟨code.name, txt "1.1.0"⟩ code _ _ _
    (.deploy _ ⟨_, _, Sample.init0⟩) rfl
  cases hi
  have e1 : numbered.parse (txt "1.1.0") = some (1, 1, 0) := parses (by decide +kernel)
  have e2 : numbered.parse code.version = some (1, 0, 2) := parses (by decide +kernel)
  rw [e1] at hv; cases hv
  rw [e2] at hw; cases hw
  rcases hle with h | h
  · cases h
  · revert h; decide +kernel

/-- It also takes over a deployment of marketplace v1, which in turn would not take over one of the auction. -/
theorem C117_foreign : migrate code (some V1.code) = .ok (some code) ∧
    ∀ sv r', V1.migrate sv V1.code (some code) ≠ .ok r' := by
  refine ⟨rfl, fun sv r' h => ?_⟩
  obtain ⟨i, _, _, h1, h2, _⟩ := V1.migrate_ok.mp h
  cases h1
  revert h2
  decide +kernel

/-- **C117** (what holds) In the whole life of a deployment the record is exactly name and version of the code that runs, the
state is one the contract can reach without any migration, and no migration fails. -/
theorem C117_partial {p : Params} {self : Addr} {code : Info} {r : Option Info} {s : State} (h : Lived p self code r s) :
    r = some code ∧ Reach p self s ∧ ∀ new, ∃ r', migrate new r = .ok r' := by
  refine ⟨?_, ?_, fun new => ⟨_, rfl⟩⟩
  · induction h with
    | deploy => rfl
    | step _ _ ih => exact ih
    | migrate _ h _ => cases h; rfl
  · induction h with
    | deploy _ h => obtain ⟨c, mins, h⟩ := h; exact ⟨c, mins, _, h, .refl _⟩
    | step _ h ih => obtain ⟨c, mins, s0, h0, ha⟩ := ih; exact ⟨c, mins, s0, h0, .step ha h⟩
    | migrate _ _ ih => exact ih

/-- **C117** (what holds) The first event ever names the code that was deployed, as recorded. -/
theorem C117_announced {p : Params} {code : Info} {self : Addr} {G : State → Prop} {s : State} {log : List Event}
    (h : Logged p code.name code.version self G s log) :
    ∃ e rest, log = e :: rest ∧ e.get "action" = some (txt "instantiate") ∧ e.get "contract_name" = some code.name ∧
      e.get "contract_version" = some code.version := by
  induction h with
  | init h =>
    simp only [instantiateE, bind_ok] at h
    obtain ⟨_, _, h⟩ := h
    cases h
    exact ⟨_, _, rfl, by simp [initEvent, Event.get_mk], by simp [initEvent, Event.get_mk],
      by simp [initEvent, Event.get_mk]⟩
  | call _ _ _ _ _ ih =>
    obtain ⟨e, rest, rfl, h⟩ := ih
    exact ⟨e, _, rfl, h⟩
  | sudo _ _ _ _ ih =>
    obtain ⟨e, rest, rfl, h⟩ := ih
    exact ⟨e, _, rfl, h⟩

namespace Sample

theorem life1 : Lived P self code (some code) s0 :=
  .migrate (code := ⟨code.name, txt "1.0.1"⟩) (.deploy _ ⟨_, _, init0⟩) rfl
example : some code = some code ∧ Reach P self s0 ∧ ∀ new, ∃ r', migrate new (some code) = .ok r' := C117_partial life1

end Sample
end Auction
end Verif

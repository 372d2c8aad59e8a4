/-
Marketplace v1: exactly which governance calls and deployments are accepted: C161.
-/
import Verif.V1.PropsAccepts
import Verif.V1.PropsAdmin

namespace Verif.V1
open Verif Spec

section
variable {p : Params}

namespace Spec
/-- An optional fee is at most the whole. -/
def BpsOk (o : Option Nat) : Prop := ∀ n, o = some n → n ≤ 10000
/-- An optional range is ordered. -/
def Ordered (o : Option ExpiryRange) : Prop := ∀ r, o = some r → r.min ≤ r.max

/-- The governance calls that are accepted. -/
def GovAccepts (p : Params) (s : State) : Sudo → Prop
  | .updateParams u => BpsOk u.maxFindersFeeBps ∧ BpsOk u.tradingFeeBps ∧ BpsOk u.bidRemovalRewardBps ∧
    Ordered u.askExpiry ∧ Ordered u.bidExpiry
  | .addOperator a => p.valid a = true ∧ a ∉ s.params.operators
  | .removeOperator a => p.valid a = true ∧ a ∈ s.params.operators
  | .addAskHook a => p.valid a = true ∧ a ∉ s.askHooks
  | .removeAskHook a => p.valid a = true ∧ a ∈ s.askHooks
  | .addBidHook a => p.valid a = true ∧ a ∉ s.bidHooks
  | .removeBidHook a => p.valid a = true ∧ a ∈ s.bidHooks
  | .addSaleHook a => p.valid a = true ∧ a ∉ s.saleHooks
  | .removeSaleHook a => p.valid a = true ∧ a ∈ s.saleHooks

/-- The deployments that are accepted. -/
def Deploys (p : Params) (i : Init) : Prop :=
  i.maxFindersFeeBps ≤ 10000 ∧ i.tradingFeeBps ≤ 10000 ∧ i.bidRemovalRewardBps ≤ 10000 ∧
  i.askExpiry.min ≤ i.askExpiry.max ∧ i.bidExpiry.min ≤ i.bidExpiry.max ∧ (∃ n, i.staleBidDuration = .time n) ∧
  (∀ a ∈ i.operators, p.valid a = true) ∧ ∀ a, i.saleHook = some a → p.valid a = true
end Spec

theorem bps_iff {o : Option Nat} : bpsOk o = .ok () ↔ BpsOk o := by
  cases o with
  | none => exact ⟨fun _ n hn => (by cases hn), fun _ => rfl⟩
  | some x => exact ⟨fun h n hn => (by cases hn; exact ensure_ok.mp h), fun h => ensure_ok.mpr (h x rfl)⟩

theorem ordered_iff {o : Option ExpiryRange} : rangeOk o = .ok () ↔ Ordered o := by
  cases o with
  | none => exact ⟨fun _ n hn => (by cases hn), fun _ => rfl⟩
  | some x => exact ⟨fun h n hn => (by cases hn; exact ensure_ok.mp h), fun h => ensure_ok.mpr (h x rfl)⟩

theorem addHook_iff {hs : List Addr} {a : Addr} {f : List Addr → State × List Msg} :
    (∃ r, (addHook hs a >>= fun x => (.ok (f x) : Out)) = .ok r) ↔ a ∉ hs := by
  rw [ok_exists]
  unfold addHook
  simp only [bind_ok, ensure_ok]
  exact ⟨fun ⟨_, ⟨_, h, _⟩, _⟩ => h, fun h => ⟨_, ⟨(), h, rfl⟩, _, rfl⟩⟩

theorem removeHook_iff {hs : List Addr} {a : Addr} {f : List Addr → State × List Msg} :
    (∃ r, (removeHook hs a >>= fun x => (.ok (f x) : Out)) = .ok r) ↔ a ∈ hs := by
  rw [ok_exists]
  unfold removeHook
  simp only [bind_ok, ensure_ok]
  exact ⟨fun ⟨_, ⟨_, h, _⟩, _⟩ => h, fun h => ⟨_, ⟨(), h, rfl⟩, _, rfl⟩⟩

/-- In every state a governance call succeeds if and only if it is one of those the specification lists. -/
theorem C161_v1 {ctx : Ctx} {s : State} (m : Sudo) : (∃ r, sudo p ctx m s = .ok r) ↔ GovAccepts p s m := by
  cases m with
  | updateParams u =>
    simp only [sudo, updateParams, GovAccepts]
    rw [unit_iff bps_iff, unit_iff bps_iff, unit_iff bps_iff, unit_iff ordered_iff, unit_iff ordered_iff, done_iff]
  | addOperator a => simp only [sudo, addOperator, GovAccepts]; rw [valid_iff, unit_iff ensure_ok, done_iff]
  | removeOperator a => simp only [sudo, removeOperator, GovAccepts]; rw [valid_iff, unit_iff ensure_ok, done_iff]
  | addAskHook a => simp only [sudo, GovAccepts]; rw [valid_iff, addHook_iff]
  | addBidHook a => simp only [sudo, GovAccepts]; rw [valid_iff, addHook_iff]
  | addSaleHook a => simp only [sudo, GovAccepts]; rw [valid_iff, addHook_iff]
  | removeAskHook a => simp only [sudo, GovAccepts]; rw [valid_iff, removeHook_iff]
  | removeBidHook a => simp only [sudo, GovAccepts]; rw [valid_iff, removeHook_iff]
  | removeSaleHook a => simp only [sudo, GovAccepts]; rw [valid_iff, removeHook_iff]

/-- A deployment succeeds if and only if the specification lists it. -/
theorem C161_v1_deploy {i : Init} : (∃ s, instantiate p i = .ok s) ↔ Deploys p i := by
  constructor
  · rintro ⟨s, h⟩
    obtain ⟨h1, h2, h3, h4, h5, h6, _, _, _, _, _, _, _, _, _, _, h7, _, h8, _⟩ := C96_init h
    exact ⟨h2, h1, h3, h4, h5, h6, h7, h8⟩
  · rintro ⟨h1, h2, h3, h4, h5, ⟨n, h6⟩, h7, h8⟩
    obtain ⟨ops, hops⟩ : ∃ ops, mapValidate p.valid i.operators = .ok ops := by
      unfold mapValidate
      rw [if_pos (List.all_eq_true.mpr h7)]
      exact ⟨_, rfl⟩
    obtain ⟨hooks, hh⟩ : ∃ hooks, (match i.saleHook with
        | some h => addrValidate p h >>= fun h => addHook [] h
        | none => .ok []) = .ok hooks := by
      cases hs : i.saleHook with
      | none => exact ⟨_, rfl⟩
      | some a =>
        refine ⟨[a], ?_⟩
        simp only [bind_ok]
        exact ⟨a, addrValidate_ok.mpr ⟨h8 a hs, rfl⟩, by simp [addHook, ensure, ok_bind]⟩
    unfold instantiate
    simp only [bind_ok, ensure_ok, ExpiryRange.validate]
    exact ⟨_, (), h1, (), h2, (), h3, (), h4, (), h5, (), by rw [h6], ops, hops, hooks, hh, rfl⟩

namespace Sample
/-- bob becomes an operator and cannot twice -/
example := (C161_v1 (s := s6) (.addOperator bob)).mp ⟨_, srun_eq (c := Sample.ctx 1002) (by decide +kernel)⟩
example : ¬ ∃ r, sudo P (Sample.ctx 1002) (.removeOperator bob) s6 = .ok r := by
  rw [C161_v1]
  intro h
  exact absurd h.2 (by decide +kernel)
example : ∃ r, sudo P (Sample.ctx 1002) (.updateParams { tradingFeeBps := some 10000 }) s6 = .ok r :=
  (C161_v1 _).mpr ⟨fun _ h => (by cases h), fun _ h => (by cases h; decide), fun _ h => (by cases h), fun _ h => (by cases h), fun _ h => (by cases h)⟩
example := C161_v1_deploy.mp ⟨_, init0⟩
end Sample

end
end Verif.V1

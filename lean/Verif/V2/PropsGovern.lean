/-
Marketplace v2: exactly which deployments are accepted: C161. The contract has no governance entry point; the calls of its
administrator are among those of C160.
-/
import Verif.V2.PropsAccepts

namespace Verif.V2
open Verif Spec

namespace Spec
/-- The settings that are accepted. -/
def Deploys (p : Params) (c : Config) : Prop :=
  p.valid c.feeManager = true ∧ p.valid c.royaltyRegistry = true ∧ c.protocolFeeBps < 10000 ∧ c.makerRewardBps + c.takerRewardBps < 10000
end Spec

/-- A deployment succeeds if and only if the specification lists it; the settings it accepts are those that the administrator can
change to later. -/
theorem C161_v2_deploy {p : Params} {c : Config} : (∃ s, instantiate p c = .ok s) ↔ Deploys p c := by
  unfold instantiate Config.strToAddr Config.validate Deploys
  simp only [bind_ok, addrValidate_ok, ensure_ok, u64_ok]
  have e1 : U64MAX = 2^64 - 1 := rfl
  constructor
  · rintro ⟨s, c', ⟨_, ⟨h1, _⟩, _, ⟨h2, _⟩, h3⟩, _, ⟨_, h4, n, ⟨_, rfl⟩, h5⟩, _⟩
    cases h3
    exact ⟨h1, h2, h4, h5⟩
  · rintro ⟨h1, h2, h3, h4⟩
    exact ⟨_, c, ⟨_, ⟨h1, rfl⟩, _, ⟨h2, rfl⟩, rfl⟩, (), ⟨(), h3, _, ⟨by omega, rfl⟩, h4⟩, rfl⟩

example := C161_v2_deploy.mp ⟨_, Sample.init0⟩
example : ¬ Deploys Sample.P { Sample.cfg with makerRewardBps := 5000, takerRewardBps := 5000 } := fun h => absurd h.2.2.2 (by decide)

end Verif.V2

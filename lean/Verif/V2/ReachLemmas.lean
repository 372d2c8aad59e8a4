/- Invariants along histories. Helper file, no properties. -/
import Verif.V2.Trade

namespace Verif.V2
open Verif Spec

section
variable {p : Params} {self : Addr} {G : State → Prop}

theorem Spec.Reach.wf {s : State} (h : Reach p self G s) : WF p s := by
  induction h with
  | init h => exact WF.init h
  | call _ _ _ _ h ih => exact ih.eff (execute_eff h)

theorem Spec.Reach.nonce {s : State} (h : Reach p self NoWrap s) : NonceInv p s := by
  induction h with
  | init h => exact NonceInv.init h
  | call hr hg _ _ h ih => exact ih.eff (Spec.Reach.wf hr) hg (execute_eff h)

theorem Spec.Reach.any {s : State} (h : Reach p self G s) : Reach p self Any s := by
  induction h with
  | init h => exact .init h
  | call _ _ hs hn h ih => exact .call ih trivial hs hn h

/-- A call that trades does so according to the specification. -/
theorem trade_main {ctx : Ctx} {sender : Addr} {funds : List Coin} {m : Exec} {s s' : State} {msgs : List Msg}
    (hr : Reach p self G s) (hlim : 1 ≤ p.maxLimit) (hself : ctx.self = self)
    (hx : execute p ctx sender funds m s = .ok (s', msgs)) (ht : Trades m s' self msgs) :
    Traded p ctx.q s sender funds m s' msgs := by
  obtain ⟨c, t, to, hm, hnr, hno⟩ := ht
  rcases eff_trade (Spec.Reach.wf hr) hlim (execute_eff hx) with h | ⟨id, a, rfl, _⟩ | ⟨c', t', d, id, a, fee, rfl, h1, h2, h3, h4, h5⟩ | h
  · exact absurd hm (h c t to)
  · exact absurd rfl (hnr id)
  · exfalso
    rw [h5] at hm
    simp only [List.mem_cons, List.not_mem_nil, or_false, reduceCtorEq, false_or, Msg.nft.injEq] at hm
    obtain ⟨rfl, rfl, rfl⟩ := hm
    exact hno ⟨hself, id, a, d, rfl, h1, h2, h3, h4⟩
  · exact h

end
end Verif.V2

/-
Marketplace v1: what the settings at the time of the sale mean to orders placed before (C150).
-/
import Verif.V1.PropsSale
import Verif.V1.Hooks
import Verif.Base.Drain

namespace Verif.V1
open Verif Spec

/-- Calls by which somebody buys a listed token. -/
def Spec.Buys : Exec → Prop
  | .setBid _ _ _ _ _ _ | .buyNow _ _ _ _ _ | .buyFor _ _ _ _ _ _ => True
  | _ => False

/-- What the terms of a sale leave for the seller if the network fee is `t` basis points. -/
def Spec.leaves (q : Queries) (t : Nat) (T : Terms) : Nat :=
  T.price - share t T.price - T.found - T.price * royaltyOf q T.coll / 10^18

/-- A listing that nobody touches is later sold for at least what it would have brought before, up to one unit of dust. -/
def C150_statement : Prop :=
  ∀ (p : Params) (me : Addr) (s0 s : State), Reach p me s0 → After p me s0 s →
  ∀ (c : Addr) (n : Nat) (a : Ask), s0.asks.get? (c, n) = some a → s.asks.get? (c, n) = some a →
  ∀ (ctx : Ctx) (sender : Addr) (funds : List Coin) (m : Exec) (s' : State) (msgs : List Msg) (T : Terms) (t : Nat), Buys m →
    execute p ctx sender funds m s = .ok (s', msgs) → handed msgs ≠ [] → terms s sender m = some T → T.coll = c → T.tok = n →
    s0.params.tradingFee = percent t →
    leaves ctx.q t T ≤ gets T.payee ustars msgs + 1

variable {p : Params} {me : Addr} {s s' : State} {ctx : Ctx} {sender : Addr} {funds : List Coin} {m : Exec} {msgs : List Msg}

theorem gets_core (x : Addr) (d : Denom) : ∀ ms : List Msg, gets x d (core ms) = gets x d ms
  | [] => rfl
  | .send a cs :: ms => by rw [core_send]; simp only [gets, gets_core x d ms]
  | .fairBurn cs :: ms => by rw [core_burn]; simp only [gets, gets_core x d ms]
  | .nft c t r :: ms => by rw [core_nft]; simp only [gets, gets_core x d ms]
  | .initRoyalty _ _ :: ms => gets_core x d ms
  | .hook _ _ :: ms => gets_core x d ms

theorem percent_inj {a b : Nat} (h : percent a = percent b) : a = b := by unfold percent at h; omega

theorem Spec.After.join {a b c : State} (h : After p me a b) (h' : After p me b c) : After p me a c := by
  induction h' with
  | refl => exact h
  | step _ hs ih => exact .step ih hs

/-- What holds: a sale brings what the settings at the time of the sale leave, up to one unit of dust. -/
theorem C150_partial_now (hr : Reach p me s) (h : execute p ctx sender funds m s = .ok (s', msgs)) (hh : handed msgs ≠ []) {T : Terms}
    (hT : terms s sender m = some T) {t : Nat} (ht : s.params.tradingFee = percent t) :
    leaves ctx.q t T ≤ gets T.payee ustars msgs + 1 := by
  obtain ⟨T', t', burnt, roy, sell, dust, hT', ht', rfl, rfl, hsum, hd, -, fin, art, hc, -, -⟩ := C45_parts hr h hh
  rw [hT] at hT'
  cases hT'
  have : t' = t := percent_inj (ht'.symm.trans ht)
  subst this
  have hg : sell ≤ gets T.payee ustars msgs := by
    rw [← gets_core, hc]
    simp only [gets_append, gets, if_pos, amountOf, Coin.inDenom]
    omega
  unfold leaves
  omega

/-- What holds: as long as governance leaves the network fee alone, the listing brings what it would have brought when it was
placed. Missing: a new fee applies to all listings. -/
theorem C150_partial {s0 : State} (h0 : Reach p me s0) (hs : After p me s0 s) (hc : s.params.tradingFee = s0.params.tradingFee)
    (h : execute p ctx sender funds m s = .ok (s', msgs)) (hh : handed msgs ≠ []) {T : Terms} (hT : terms s sender m = some T) {t : Nat}
    (ht : s0.params.tradingFee = percent t) : leaves ctx.q t T ≤ gets T.payee ustars msgs + 1 :=
  C150_partial_now (let ⟨i, s1, hi, h1⟩ := h0; ⟨i, s1, hi, h1.join hs⟩) h hh hT (hc.trans ht)

namespace Sample
/-- alice has listed the token for 101; governance raises the network fee from 2 % to 90 % -/
def s3h : State := (srun (Sample.ctx 1000) (.updateParams { tradingFeeBps := some 9000 }) s3).1
theorem s3h_after : After P self s3 s3h := .step (.refl _) (.sudo (ctx := Sample.ctx 1000) (m := .updateParams { tradingFeeBps := some 9000 }) rfl (srun_eq (by decide +kernel)))
def buyH : State × List Msg := run (Sample.ctx 1002) carol (us 101) buyMsg s3h
theorem buyH_ok : execute P (Sample.ctx 1002) carol (us 101) buyMsg s3h = .ok (buyH.1, buyH.2) := run_eq (by decide +kernel)
def askH : Ask := (s3.asks.get? (coll, 1)).getD ⟨.fixedPrice, coll, 1, alice, 0, none, none, none, 0, true⟩
def termsH : Terms := ⟨coll, 1, 101, alice, alice, carol, carol, some oper, some 500⟩
/-- 89 at the old fee (less one unit of dust), nothing at the new one -/
theorem buyH_gets : leaves (Sample.ctx 1002).q 200 termsH = 89 ∧ gets alice ustars buyH.2 = 0 := by decide +kernel
end Sample

example := C150_partial Sample.r3 (.refl _) rfl (Sample.run_eq (c := Sample.ctx 1002) (sender := Sample.carol) (funds := Sample.us 101)
  (m := Sample.buyMsg) (s := Sample.s3) (by decide +kernel)) (by decide +kernel) (T := Sample.termsH) rfl (t := 200) (by decide +kernel)

/-- alice would have got 88 for the listing; it is sold and there is nothing left. -/
theorem C150_violated : ¬ C150_statement := by
  intro h
  have := h Sample.P Sample.self Sample.s3 Sample.s3h Sample.r3 Sample.s3h_after Sample.coll 1 Sample.askH (by decide +kernel) (by decide +kernel)
    (Sample.ctx 1002) Sample.carol (Sample.us 101) Sample.buyMsg Sample.buyH.1 Sample.buyH.2 Sample.termsH 200 trivial Sample.buyH_ok
    (by decide +kernel) rfl rfl rfl (by decide +kernel)
  revert this
  decide +kernel

end Verif.V1

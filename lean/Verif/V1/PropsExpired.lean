/-
Marketplace v1: a listing that has expired: C158.
-/
import Verif.V1.PropsAlone
import Verif.V1.PropsSale

namespace Verif.V1
open Verif Spec

section
variable {p : Params} {me : Addr}

namespace Spec
/-- All orders but the listing of token `t`. -/
def besides (c : Addr) (t : Nat) : Region := ⟨fun k => decide (k ≠ (c, t)), fun _ => true, fun _ => true⟩

/-- The calls by which a listing is made, changed or taken down. -/
def manages (c : Addr) (t : Nat) (m : Exec) : Prop :=
  match m with
  | .setAsk _ c' t' _ _ _ _ _ | .updateAskPrice c' t' _ | .removeAsk c' t' | .syncAsk c' t' | .removeStaleAsk c' t' => c' = c ∧ t' = t
  | _ => False
end Spec

/-! ### C158 -/

/-- Once a listing has expired, every call that is not about that listing itself does what it would do had the listing been
taken down. -/
def C158_statement : Prop := ∀ (p : Params) (me : Addr) (s : State), Reach p me s → ∀ (c : Addr) (t : Nat) (a : Ask),
  s.asks.get? (c, t) = some a → ∀ ctx : Ctx, a.expiresAt ≤ ctx.time → ∀ (sender : Addr) (funds : List Coin) (m : Exec),
  ¬ manages c t m →
  execute p ctx sender funds m (only (besides c t) s) = onlyRes (besides c t) (execute p ctx sender funds m s)

/-- What holds: it is so for all calls but bids for the token; also if the listing has not expired. Missing: bids. -/
theorem C158_partial_others {s : State} {c : Addr} {t : Nat} {ctx : Ctx} {sender : Addr} {funds : List Coin} {m : Exec}
    (hm : ¬ manages c t m) (hb : ¬ bidsOn c t m) :
    execute p ctx sender funds m (only (besides c t) s) = onlyRes (besides c t) (execute p ctx sender funds m s) := by
  have hval : ∀ {x y : Bytes}, addrValidate p x = .ok y → x = y := fun h => (addrValidate_ok.mp h).2
  have key : ∀ {c' : Addr} {t' : Nat}, ¬ (c' = c ∧ t' = t) → (besides c t).ask (c', t') = true := by
    intro c' t' h
    exact decide_eq_true (fun e => h (by simpa only [Prod.mk.injEq] using e))
  cases m with
  | acceptBid coll tok bidder finder =>
    simp only [execute, executeAcceptBid, onlyRes, map_bind]
    refine bind_same fun x hx => bind_same fun y hy => bind_same fun _ _ => ?_
    rw [get_bid rfl]
    refine bind_same fun _ _ => bind_same fun _ _ => bind_same fun _ _ => bind_same fun _ _ => bind_same fun _ _ => ?_
    exact bind_same fun _ _ => by simp only [Except.map, only, AMap.keep_erase]
  | acceptCollectionBid coll tok bidder finder =>
    simp only [execute, executeAcceptCollectionBid, onlyRes, map_bind]
    refine bind_same fun x hx => bind_same fun y hy => bind_same fun _ _ => ?_
    rw [get_cbid rfl]
    refine bind_same fun _ _ => bind_same fun _ _ => bind_same fun _ _ => bind_same fun _ _ => bind_same fun _ _ => ?_
    exact bind_same fun _ _ => by simp only [Except.map, only, AMap.keep_erase]
  | _ =>
    refine C124_local ⟨?_, fun _ _ => rfl, fun _ _ => rfl⟩
    intro k hk
    first
    | (cases hk; first | exact key hm | exact key hb)
    | cases hk

/-- What the code does with bids for the token instead: it refuses them all, whatever is offered and by whomever. -/
theorem C158_partial_bids {s : State} {c : Addr} {t : Nat} {a : Ask} (ha : s.asks.get? (c, t) = some a) {ctx : Ctx}
    (he : a.expiresAt ≤ ctx.time) {sender : Addr} {funds : List Coin} {m : Exec} (hb : bidsOn c t m) :
    ¬ ∃ r, execute p ctx sender funds m s = .ok r := by
  rintro ⟨⟨s', msgs⟩, h⟩
  cases execute_eff h with
  | bidSaved m b price hm hv hfinder hfee hfunds hpos hmin hexp hask =>
    have : b.coll = c ∧ b.tok = t := by
      cases m <;> first | (cases hm; exact hb) | cases hm
    rw [this.1, this.2] at hask
    have := (hask _ ha).1
    omega
  | bought m b price ask sale hm hv hfinder hfee hfunds hpos hmin ha' hlive =>
    have : b.coll = c ∧ b.tok = t := by
      cases m <;> first | (cases hm; exact hb) | cases hm
    rw [this.1, this.2, ha] at ha'
    cases ha'
    omega
  | _ => exact hb

end

/-- carol would bid for alice's token, the listing of which ended at 2000. -/
theorem C158_violated : ¬ C158_statement := by
  intro h
  have h1 := h Sample.P Sample.self Sample.s6 Sample.r6 Sample.coll 1
    ⟨.fixedPrice, Sample.coll, 1, Sample.alice, 101, none, none, some 500, 2000 * Sample.NSs, true⟩ (by decide +kernel)
    (Sample.ctx 2000) (by decide +kernel) Sample.carol (Sample.us 70) Sample.bidMsg (fun h => h)
  have h2 : ¬ ∃ r, execute Sample.P (Sample.ctx 2000) Sample.carol (Sample.us 70) Sample.bidMsg Sample.s6 = .ok r :=
    C158_partial_bids (c := Sample.coll) (t := 1)
      (a := ⟨.fixedPrice, Sample.coll, 1, Sample.alice, 101, none, none, some 500, 2000 * Sample.NSs, true⟩)
      (by decide +kernel) (by decide +kernel) ⟨rfl, rfl⟩
  have h3 := Sample.run_eq (c := Sample.ctx 2000) (sender := Sample.carol) (funds := Sample.us 70) (m := Sample.bidMsg)
    (s := only (besides Sample.coll 1) Sample.s6) (by decide +kernel)
  rw [h3] at h1
  cases hx : execute Sample.P (Sample.ctx 2000) Sample.carol (Sample.us 70) Sample.bidMsg Sample.s6 with
  | ok r => exact h2 ⟨r, hx⟩
  | error e => rw [hx] at h1; cases h1

namespace Sample
/-- alice accepts bob's bid after the end of the listing -/
example := C158_partial_others (p := P) (s := s6) (c := coll) (t := 1) (ctx := ctx 2000) (sender := alice) (funds := [])
  (m := .acceptBid coll 1 bob none) (fun h => h) (fun h => h)
example : ok (ctx 2000) alice [] (.acceptBid coll 1 bob none) s6 = true ∧
    ok (ctx 2000) alice [] (.acceptBid coll 1 bob none) (only (besides coll 1) s6) = true := by decide +kernel
example := C158_partial_bids (p := P) (s := s6) (c := coll) (t := 1) (ctx := ctx 2000) (sender := carol) (funds := us 101) (m := buyMsg)
  (a := ⟨.fixedPrice, coll, 1, alice, 101, none, none, some 500, 2000 * NSs, true⟩) (by decide +kernel) (by decide +kernel) ⟨rfl, rfl⟩
end Sample

end Verif.V1

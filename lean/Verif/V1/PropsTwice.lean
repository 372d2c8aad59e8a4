/-
Marketplace v1: a purchase that is sent twice: C165.
-/
import Verif.V1.PropsAccepts

namespace Verif.V1
open Verif Spec

/-- The call is about buying one given token. -/
def Spec.BuysGiven : Exec → Prop
  | .setBid _ _ _ _ _ _ | .buyNow _ _ _ _ _ | .buyFor _ _ _ _ _ _ => True
  | _ => False

/-- The messages hand over a token. -/
def Spec.Delivers (msgs : List Msg) : Prop := ∃ c t to, Msg.nft c t to ∈ msgs

/-- A call that has bought the token it is about fails if it is sent again, at any time and with any coins. -/
def C165_v1_statement : Prop :=
  ∀ (p : Params) (me : Addr) (s s' : State) (ctx ctx' : Ctx) (sender : Addr) (funds funds' : List Coin) (m : Exec)
    (msgs : List Msg), Reach p me s → ctx.self = me → BuysGiven m → execute p ctx sender funds m s = .ok (s', msgs) → Delivers msgs →
    ∃ e, execute p ctx' sender funds' m s' = .error e

section
variable {p : Params} {me : Addr}

/-- What holds: `BuyNow` and `BuyFor` that have bought the token fail if they are sent again. -/
theorem C165_partial_v1 {s s' : State} {ctx ctx' : Ctx} {sender : Addr} {funds funds' : List Coin} {m : Exec} {msgs : List Msg}
    (hm : BuysGiven m) (hno : ∀ c t x ty f n, m ≠ .setBid c t x ty f n)
    (hx : execute p ctx sender funds m s = .ok (s', msgs)) (hd : Delivers msgs) : ∃ e, execute p ctx' sender funds' m s' = .error e := by
  obtain ⟨b, hb, hbuy⟩ : ∃ b, bidArgs m = some b ∧ b.buyNow = true := by
    cases m <;> first | exact hm.elim | exact ⟨_, rfl, rfl⟩ | exact absurd rfl (hno _ _ _ _ _ _)
  have gone : s'.asks.get? (b.coll, b.tok) = none := by
    cases execute_eff hx <;> try cases hb
    case bidSaved =>
      exfalso
      obtain ⟨c, t, to, hin⟩ := hd
      simp only [List.mem_append, bidHook, List.mem_map] at hin
      rcases hin with hin | ⟨_, _, e⟩
      · unfold refund at hin; split at hin <;> simp at hin
      · cases e
    case bought =>
      rename bidArgs m = _ => hb2
      cases hb.symm.trans hb2
      simp
  cases hx2 : execute p ctx' sender funds' m s' with
  | error e => exact ⟨e, rfl⟩
  | ok r =>
    exfalso
    obtain ⟨s2, m2⟩ := r
    cases execute_eff hx2 <;> try cases hb
    case bidSaved =>
      rename bidArgs m = _ => hb2
      rename (AMap.get? _ _ = none → _) => hn
      cases hb.symm.trans hb2
      rw [hn gone] at hbuy; cases hbuy
    case bought =>
      rename bidArgs m = _ => hb2
      cases hb.symm.trans hb2
      rename AMap.get? _ _ = some _ => ha
      cases ha.symm.trans gone

end

namespace Sample
/-- carol buys the token for 101 with a bid and sends the call again -/
def bid2 : Exec := .setBid coll 1 (3000 * NSs) .fixedPrice none none
def t1 : State × List Msg := run (ctx 1002) carol (us 101) bid2 s6
theorem t1_ok : execute P (ctx 1002) carol (us 101) bid2 s6 = .ok (t1.1, t1.2) := run_eq (by decide +kernel)
theorem t1_nft : Delivers t1.2 := ⟨coll, tokStr 1, carol, by decide +kernel⟩
theorem t2_ok : ok (ctx 1003) carol (us 101) bid2 t1.1 = true := by decide +kernel
/-- the second call has left a bid of 101 by carol on the token it owns -/
example : ((run (ctx 1003) carol (us 101) bid2 t1.1).1.bids.get? (coll, 1, carol)).map Bid.price = some 101 := by decide +kernel
example := C165_partial_v1 (ctx' := ctx 1003) (funds' := us 101) (m := buyMsg) trivial (fun _ _ _ _ _ _ => by simp [buyMsg])
  (run_eq (c := ctx 1002) (sender := carol) (funds := us 101) (s := s6) (by decide +kernel)) ⟨coll, tokStr 1, carol, by decide +kernel⟩
end Sample

/-- The code violates C165 in v1: `SetBid` that has bought the token leaves a bid for it when it is sent again. -/
theorem C165_v1_violated : ¬ C165_v1_statement := by
  intro h
  obtain ⟨e, he⟩ := h Sample.P Sample.self Sample.s6 Sample.t1.1 (Sample.ctx 1002) (Sample.ctx 1003) Sample.carol
    (Sample.us 101) (Sample.us 101) Sample.bid2 Sample.t1.2 Sample.r6 rfl trivial Sample.t1_ok Sample.t1_nft
  rw [Sample.run_eq Sample.t2_ok] at he
  cases he

end Verif.V1

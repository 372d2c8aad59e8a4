/-
Reserve auction: changing the reserve price, compared with cancelling the auction and creating it anew (C156).
-/
import Verif.Auction.PropsSize

namespace Verif.Auction
open Verif Spec

variable {p : Params} {me : Addr}

/-! ### C156 -/

/-- The state is the same; creating the auction anew costs the fee and takes the token into custody again. -/
theorem C156_reserve {ctx1 ctx2 ctx3 : Ctx} {sender : Addr} {f1 f2 f3 : List Coin} {coll tok : Bytes} {r : Coin} {a : Auction}
    {s s1 s2 s3 : State} {m1 m2 m3 : List Msg} (hr : Reach p me s) (ha : s.auctions.get? (coll, tok) = some a)
    (h1 : execute p ctx1 sender f1 (.cancel coll tok) s = .ok (s1, m1))
    (h2 : execute p ctx2 sender f2 (.create coll tok r a.duration a.recipient) s1 = .ok (s2, m2))
    (h3 : execute p ctx3 sender f3 (.updateReserve coll tok r) s = .ok (s3, m3)) :
    s2 = s3 ∧ m1 = [.nft coll tok sender] ∧ m3 = [] ∧
      m2 = (if s.config.createFee.amount = 0 then [] else [.fairBurn [s.config.createFee]]) ++ [.nft coll tok ctx2.self] := by
  have hgood := (Spec.Reach.wf hr).auctions _ _ ha
  cases execute_eff h1 with
  | cancel _ _ a' _ _ ha' hs hb =>
  cases Option.some.inj (ha.symm.trans ha')
  cases execute_eff h3 with
  | reserve _ _ _ a' _ _ _ ha' _ _ _ _ =>
  cases Option.some.inj (ha.symm.trans ha')
  cases execute_eff h2 with
  | create _ _ _ _ _ min =>
  refine ⟨?_, by rw [hs], rfl, rfl⟩
  have he : a.endTime = none := hgood.first.mp hb
  have hh : a.highBid = none := hgood.high.mpr he
  have hk := hgood.key
  obtain ⟨c, t, sel, res, dur, et, rcp, hi, fb⟩ := a
  cases hk
  cases hs
  cases hb
  cases he
  cases hh
  simp only [Auction.key, AMap.insert_erase]

open Sample in
/-- alice changes the reserve price to 150, in place or by creating the auction anew. -/
example : (let s := (run (ctx 1000000) alice [] (.cancel coll tok) s2).1
    ok (ctx 1000000) alice [] (.cancel coll tok) s2 = true ∧
    ok (ctx 1000000 (some alice)) alice [⟨ust, 5⟩] (.create coll tok ⟨ust, 150⟩ 60 none) s = true ∧
    ok (ctx 1000000) alice [] (.updateReserve coll tok ⟨ust, 150⟩) s2 = true) := by
  decide +kernel

end Verif.Auction

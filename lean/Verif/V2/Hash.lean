/-
What the v2 marketplace hashes, and exchanging the hash for another one that agrees on it.
-/
import Verif.V2.PropsLedger
import Verif.V2.PropsSigned

namespace Verif
section
variable {σ κ υ : Type}

/-- A machine whose contract accepts more calls can do everything the other one does. -/
theorem Sys.Did.widen {S : Sys σ κ υ} {e : Ctx → Addr → List Coin → κ → σ → Res (σ × List Msg)}
    (he : ∀ ctx sender funds m s r, S.exec ctx sender funds m s = .ok r → e ctx sender funds m s = .ok r)
    {a b : World σ × List Msg} {x : Entry κ υ} (h : S.Did a x b) : Sys.Did { S with exec := e } a x b := by
  cases h with
  | call w stack sender funds m q s' msgs hctl hne hfunds hq hex =>
    exact .call w stack sender funds m q s' msgs hctl hne hfunds hq (he _ _ _ _ _ _ hex)
  | sudo w m q s' msgs hq hex => exact .sudo w m q s' msgs hq hex
  | env w w' stack hctl h => exact .env w w' stack hctl h
  | block w t h ht hh => exact .block w t h ht hh
  | send w to cs rest hne hpos hbal => exact .send w to cs rest hne hpos hbal
  | fairBurn w cs rest hbal => exact .fairBurn w cs rest hbal
  | nft w c t to rest o hh ho hauth => exact .nft w c t to rest o hh ho hauth
  | initRoyalty w r c rest => exact .initRoyalty w r c rest
  | ret w m rest hf => exact .ret w m rest hf

theorem Sys.Hist.widen {S : Sys σ κ υ} {e : Ctx → Addr → List Coin → κ → σ → Res (σ × List Msg)}
    (he : ∀ ctx sender funds m s r, S.exec ctx sender funds m s = .ok r → e ctx sender funds m s = .ok r)
    {a b : World σ × List Msg} {es : List (Entry κ υ)} (h : S.Hist a es b) : Sys.Hist { S with exec := e } a es b := by
  induction h with
  | nil => exact .nil
  | cons _ hd ih => exact .cons ih (hd.widen he)

end
end Verif

namespace Verif.V2
open Verif Spec

/-! ### What is hashed -/

/-- The strings a call computes the id of, in the state it finds: orders.rs 57, 175-180, 265-269 (`new`), 207
(`match_with_ask`), execute.rs 704 and 975 (`accept_*`). -/
def Spec.hashed (height : Nat) (s : State) : Exec → List Bytes
  | .setAsk c t _ | .sellNft c t _ => [c ++ t]
  | .acceptAsk id _ =>
    match s.asks.get? id with
    | some a => [a.collection ++ a.tokenId ++ be8 height ++ be8 (nextNonce s)]
    | none => []
  | .setBid c t _ | .buySpecificNft c t _ => [c ++ t, c ++ t ++ be8 height ++ be8 (nextNonce s)]
  | .updateBid id _ | .acceptBid id _ =>
    match s.bids.get? id with
    | some b => [b.collection ++ b.tokenId]
    | none => []
  | .setCollectionBid c _ | .buyCollectionNft c _ => [c ++ be8 height ++ be8 (nextNonce s)]
  | .acceptCollectionBid id t _ =>
    match s.cbids.get? id with
    | some b => [b.collection ++ t]
    | none => []
  | _ => []

/-- The hash tells all strings of the list apart. -/
def Spec.NoClash (p : Params) (U : List Bytes) : Prop := ∀ a ∈ U, ∀ b ∈ U, p.hash a = p.hash b → a = b

/-- The marketplace with another hash. -/
def Spec.withHash (p : Params) (h : Bytes → Bytes) : Params := { p with hash := h }

variable {p : Params} {me : Addr} {honest : Addr → Prop} {G : State → Prop}

theorem bind_congr' {α β : Type} {x : Res α} {f g : α → Res β} (h : ∀ a, x = .ok a → f a = g a) :
    (x >>= f) = (x >>= g) := by
  cases x with
  | error e => rfl
  | ok a => exact h a rfl

/-- Only the hashes of the strings hashed matter for the outcome of a call. -/
theorem execute_agree {h : Bytes → Bytes} {ctx : Ctx} {sender : Addr} {funds : List Coin} {m : Exec} {s : State}
    (hh : ∀ x ∈ hashed ctx.height s m, h x = p.hash x) :
    execute (withHash p h) ctx sender funds m s = execute p ctx sender funds m s := by
  have val : ∀ {a b : Bytes}, addrValidate p a = .ok b → b = a := by
    intro a b e
    unfold addrValidate at e
    split at e
    · exact (Except.ok.inj e).symm
    · cases e
  have hask : ∀ c t, h (c ++ t) = p.hash (c ++ t) → askId (withHash p h) c t = askId p c t := fun _ _ e => e
  have acc : ∀ c t d, h (c ++ t) = p.hash (c ++ t) →
      acceptorAsk (withHash p h) ctx sender c t d s = acceptorAsk p ctx sender c t d s := by
    intro c t d e
    unfold acceptorAsk Ask.new
    rw [hask c t e]
  cases m with
  | updateConfig _ | updateCollectionDenom _ _ | setListingFee _ | removeListingFee _ | updateAsk _ _ | removeAsk _
  | removeBid _ | updateCollectionBid _ _ | removeCollectionBid _ => rfl
  | setAsk c t d | sellNft c t d =>
    refine bind_congr' (fun c' hc => ?_)
    cases val hc
    refine bind_congr' (fun d' _ => ?_)
    unfold executeSetAsk Ask.new
    rw [hask c t (hh _ (by simp [hashed]))]
    rfl
  | acceptAsk id d =>
    refine bind_congr' (fun d' _ => ?_)
    unfold executeAcceptAsk
    refine bind_congr' (fun _ _ => bind_congr' (fun a ha => ?_))
    have ha' : s.asks.get? id = some a := by
      cases hg : s.asks.get? id with
      | none => rw [hg] at ha; cases ha
      | some x => rw [hg] at ha; cases ha; rfl
    have e := hh (a.collection ++ a.tokenId ++ be8 ctx.height ++ be8 (nextNonce s)) (by simp [hashed, ha'])
    unfold Bid.new
    simp only [withHash] at *
    rw [e]
    rfl
  | setBid c t d | buySpecificNft c t d =>
    refine bind_congr' (fun c' hc => ?_)
    cases val hc
    refine bind_congr' (fun d' _ => ?_)
    have e1 := hh (c ++ t) (by simp [hashed])
    have e2 := hh (c ++ t ++ be8 ctx.height ++ be8 (nextNonce s)) (by simp [hashed])
    have e3 : Bid.new (withHash p h) sender c t d' ctx.height (nextNonce s) = Bid.new p sender c t d' ctx.height (nextNonce s) :=
      congrArg (fun i => (⟨i, sender, c, t, d'⟩ : Bid)) e2
    have e4 : ∀ s', Bid.matchWithAsk (withHash p h) s' (Bid.new p sender c t d' ctx.height (nextNonce s)) =
        Bid.matchWithAsk p s' (Bid.new p sender c t d' ctx.height (nextNonce s)) := by
      intro s'
      unfold Bid.matchWithAsk
      rw [show askId (withHash p h) (Bid.new p sender c t d' ctx.height (nextNonce s)).collection
        (Bid.new p sender c t d' ctx.height (nextNonce s)).tokenId = askId p _ _ from e1]
      rfl
    unfold executeSetBid
    simp only [e3, e4]
    rfl
  | updateBid id d =>
    refine bind_congr' (fun d' _ => ?_)
    unfold executeUpdateBid
    refine bind_congr' (fun b hb => ?_)
    have hb' : s.bids.get? id = some b := by
      cases hg : s.bids.get? id with
      | none => rw [hg] at hb; cases hb
      | some x => rw [hg] at hb; cases hb; rfl
    have e := hh (b.collection ++ b.tokenId) (by simp [hashed, hb'])
    unfold Bid.matchWithAsk askId
    simp only [withHash]
    rw [e]
    rfl
  | acceptBid id d =>
    refine bind_congr' (fun d' _ => ?_)
    unfold executeAcceptBid
    refine bind_congr' (fun b hb => bind_congr' (fun _ _ => ?_))
    have hb' : s.bids.get? id = some b := by
      cases hg : s.bids.get? id with
      | none => rw [hg] at hb; cases hb
      | some x => rw [hg] at hb; cases hb; rfl
    rw [acc _ _ _ (hh (b.collection ++ b.tokenId) (by simp [hashed, hb']))]
    rfl
  | setCollectionBid c d | buyCollectionNft c d =>
    refine bind_congr' (fun c' hc => ?_)
    cases val hc
    refine bind_congr' (fun d' _ => ?_)
    have e2 := hh (c ++ be8 ctx.height ++ be8 (nextNonce s)) (by simp [hashed])
    have e3 : CBid.new (withHash p h) sender c d' ctx.height (nextNonce s) = CBid.new p sender c d' ctx.height (nextNonce s) :=
      congrArg (fun i => (⟨i, sender, c, d'⟩ : CBid)) e2
    unfold executeSetCollectionBid
    simp only [e3]
    rfl
  | acceptCollectionBid id t d =>
    refine bind_congr' (fun d' _ => ?_)
    unfold executeAcceptCollectionBid
    refine bind_congr' (fun b hb => bind_congr' (fun _ _ => ?_))
    have hb' : s.cbids.get? id = some b := by
      cases hg : s.cbids.get? id with
      | none => rw [hg] at hb; cases hb
      | some x => rw [hg] at hb; cases hb; rfl
    rw [acc _ _ _ (hh (b.collection ++ t) (by simp [hashed, hb']))]
    rfl

/-! ### A hash without collisions that agrees on a list -/

/-- Agrees with `f` on `U`; elsewhere longer than anything `f` yields on `U`. -/
def extend (f : Bytes → Bytes) (U : List Bytes) : Bytes → Bytes := fun x =>
  if x ∈ U then f x else List.replicate ((U.map (fun u => (f u).length)).sum + 1) 0 ++ x

theorem extend_mem {f : Bytes → Bytes} {U : List Bytes} {x : Bytes} (h : x ∈ U) : extend f U x = f x := if_pos h

theorem extend_length {f : Bytes → Bytes} {U : List Bytes} {x y : Bytes} (hx : x ∈ U) (hy : y ∉ U) :
    (extend f U x).length < (extend f U y).length := by
  rw [extend_mem hx, extend, if_neg hy, List.length_append, List.length_replicate]
  have : (f x).length ≤ (U.map (fun u => (f u).length)).sum := by
    clear hy
    induction U with
    | nil => cases hx
    | cons a U ih =>
      rw [List.map_cons, List.sum_cons]
      rcases List.mem_cons.1 hx with rfl | h
      · omega
      · have := ih h; omega
  omega

theorem extend_inj {U : List Bytes} (h : NoClash p U) : HashInj (withHash p (extend p.hash U)) := by
  intro a b e
  have e : extend p.hash U a = extend p.hash U b := e
  by_cases ha : a ∈ U
  · by_cases hb : b ∈ U
    · rw [extend_mem ha, extend_mem hb] at e; exact h a ha b hb e
    · have := extend_length (f := p.hash) ha hb; rw [e] at this; omega
  · by_cases hb : b ∈ U
    · have := extend_length (f := p.hash) hb ha; rw [e] at this; omega
    · rw [extend, if_neg ha, extend, if_neg hb] at e
      exact List.append_cancel_left e

end Verif.V2

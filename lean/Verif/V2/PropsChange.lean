/-
Marketplace v2: coins attached beyond what is needed: C168.
-/
import Verif.V2.PropsAccepts
import Verif.V2.PropsDepth

namespace Verif.V2
open Verif Spec

namespace Spec
/-- At least as many coins in every denom. -/
def AtLeast (f f' : List Coin) : Prop := ∀ d, amountOf d f ≤ amountOf d f'

/-- The amounts, alone and together with any one open bid, have 128 bits. -/
structure Sums (s : State) (f : List Coin) : Prop where
  funds : ∀ d, amountOf d f < 2^128
  bids : ∀ id b, s.bids.get? id = some b → amountOf b.details.price.denom f + b.details.price.amount < 2^128
  cbids : ∀ id b, s.cbids.get? id = some b → amountOf b.details.price.denom f + b.details.price.amount < 2^128

/-- The messages are the same but for what goes back to the caller at the end, and that differs by what the coins differ. -/
def OnlyChange (sender : Addr) (f f' : List Coin) (ms ms' : List Msg) : Prop :=
  ∃ rest back back', ms = rest ++ back ∧ ms' = rest ++ back' ∧ (∀ y ∈ back, ∃ cs, y = .send sender cs) ∧ (∀ y ∈ back', ∃ cs, y = .send sender cs) ∧
    ∀ d, paidOut d back' + amountOf d f = paidOut d back + amountOf d f'
end Spec

section
variable {p : Params} {me : Addr} {G : State → Prop} {sender : Addr}

theorem sub_pos {x : Coin} : ∀ {cs left : List Coin}, nbSub cs x = .ok left → (∀ c ∈ cs, 0 < c.amount) → 0 < amountOf x.denom cs
  | [], _, h, _ => by cases h
  | c :: cs, left, h, hp => by
    unfold nbSub at h
    rw [amountOf]
    by_cases e : c.denom = x.denom
    · have := hp c (by simp)
      unfold Coin.inDenom
      rw [if_pos e]; omega
    · rw [if_neg e, bind_ok] at h
      obtain ⟨r, hr, _⟩ := h
      have := sub_pos hr (fun y hy => hp y (List.mem_cons_of_mem _ hy))
      omega

theorem sub_more {x : Coin} {cs cs' left : List Coin} (h : nbSub cs x = .ok left) (hp : ∀ c ∈ cs, 0 < c.amount) (ho : Once cs')
    (hm : amountOf x.denom cs ≤ amountOf x.denom cs') : ∃ left', nbSub cs' x = .ok left' := by
  have h0 := sub_pos h hp
  have h1 := (nbSub_ok h).1 x.denom
  have h2 : x.inDenom x.denom = x.amount := by simp [Coin.inDenom]
  by_cases hx : 0 < x.amount
  · exact (sub_iff hx ho).mpr (by omega)
  · obtain ⟨l, hl⟩ := (sub_iff (x := ⟨x.denom, 1⟩) Nat.one_pos ho).mpr (by dsimp only; omega)
    exact nbSub_less hl rfl (by dsimp only; omega)

/-- A function of the money at hand that takes a price which does not depend on it and returns the rest. -/
def TakesPrice (sender : Addr) (F : List Coin → Out) : Prop := ∀ f s' ms, F f = .ok (s', ms) →
  ∃ x rest left, nbSub f x = .ok left ∧ ms = refund sender left rest ∧
    ∀ f' left', nbSub f' x = .ok left' → F f' = .ok (s', refund sender left' rest)

theorem priced_bind {α : Type} {A : Res α} {F : α → List Coin → Out} (h : ∀ a, A = .ok a → TakesPrice sender (F a)) :
    TakesPrice sender (fun f => A >>= fun a => F a f) := by
  intro f s' ms hx
  rw [bind_ok] at hx
  obtain ⟨a, ha, hx⟩ := hx
  obtain ⟨x, rest, left, h1, h2, h3⟩ := h a ha f s' ms hx
  refine ⟨x, rest, left, h1, h2, fun f' left' h' => ?_⟩
  show (A >>= fun a => F a f') = _
  rw [ha, ok_bind]
  exact h3 f' left' h'

theorem priced_err {e : Err} : TakesPrice sender (fun _ => .error e) := by
  intro f s' ms h; cases h

theorem priced_take {x : Coin} {K : Res (State × List Msg)} {H : List Coin → Out}
    (hH : ∀ left, H left = K >>= fun r => .ok (r.1, refund sender left r.2)) : TakesPrice sender (fun f => takePrice f x >>= H) := by
  intro f s' ms hx
  rw [bind_ok] at hx
  obtain ⟨left, h1, hx⟩ := hx
  rw [takePrice_ok] at h1
  rw [hH, bind_ok] at hx
  obtain ⟨r, hr, hx⟩ := hx
  cases hx
  refine ⟨x, r.2, left, h1, rfl, fun f' left' h' => ?_⟩
  show (takePrice f' x >>= H) = _
  rw [takePrice_ok.mpr h', ok_bind, hH, hr, ok_bind]

/-- With more coins it succeeds as well, and the surplus goes back. -/
def Tops (sender : Addr) (f f' : List Coin) (F : List Coin → Out) : Prop := ∀ s' ms, F f = .ok (s', ms) →
  ∃ ms', F f' = .ok (s', ms') ∧ OnlyChange sender f f' ms ms'

theorem tops_bind {f f' : List Coin} {α : Type} {A : Res α} {F : α → List Coin → Out} (h : ∀ a, A = .ok a → Tops sender f f' (F a)) :
    Tops sender f f' (fun f => A >>= fun a => F a f) := by
  intro s' ms hx
  rw [bind_ok] at hx
  obtain ⟨a, ha, hx⟩ := hx
  obtain ⟨ms', h1, h2⟩ := h a ha s' ms hx
  refine ⟨ms', ?_, h2⟩
  show (A >>= fun a => F a f') = _
  rw [ha, ok_bind]
  exact h1

def change (sender : Addr) (left : List Coin) : List Msg := if nbIsEmpty left then [] else [transferCoins left sender]

theorem refund_change (left : List Coin) (rest : List Msg) : refund sender left rest = rest ++ change sender left := by
  unfold refund change
  split <;> simp

theorem change_to {left : List Coin} : ∀ y ∈ change sender left, ∃ cs, y = .send sender cs := by
  intro y hy
  unfold change at hy
  split at hy
  · cases hy
  · simp only [List.mem_singleton] at hy
    exact ⟨_, hy⟩

theorem change_pays (left : List Coin) (d : Denom) : paidOut d (change sender left) = amountOf d left := by
  unfold change
  split
  case isTrue h => rw [nbIsEmpty_amountOf h]; rfl
  case isFalse => simp [transferCoins, paidOut]

theorem tops_gen {f f' g g' : List Coin} {F : List Coin → Out} (hF : TakesPrice sender F) (hp : ∀ c ∈ g, 0 < c.amount) (ho : Once g')
    (e : ∀ d, amountOf d g' + amountOf d f = amountOf d g + amountOf d f') (hm : AtLeast f f') {s' : State} {ms : List Msg}
    (hx : F g = .ok (s', ms)) : ∃ ms', F g' = .ok (s', ms') ∧ OnlyChange sender f f' ms ms' := by
  obtain ⟨x, rest, left, h1, h2, h3⟩ := hF g s' ms hx
  obtain ⟨left', h4⟩ := sub_more h1 hp ho (by have := e x.denom; have := hm x.denom; omega)
  refine ⟨_, h3 g' left' h4, rest, change sender left, change sender left', ?_, refund_change _ _, change_to, change_to, fun d => ?_⟩
  · rw [h2, refund_change]
  · rw [change_pays, change_pays]
    have a1 := (nbSub_ok h1).1 d
    have a2 := (nbSub_ok h4).1 d
    have a3 := e d
    omega

theorem tops_norm {f f' : List Coin} {F : List Coin → Out} (hF : TakesPrice sender F) (hm : AtLeast f f') (hfit : ∀ d, amountOf d f' < 2^128) :
    Tops sender f f' (fun f => nbNormalize f >>= F) := by
  intro s' ms hx
  rw [bind_ok] at hx
  obtain ⟨g, hg, hx⟩ := hx
  obtain ⟨g', hg', ho, ha⟩ := normal hfit
  obtain ⟨hga, hgp⟩ := nbNormalize_ok hg
  obtain ⟨ms', h1, h2⟩ := tops_gen hF hgp ho (fun d => by rw [hga, ha]; omega) hm hx
  refine ⟨ms', ?_, h2⟩
  show (nbNormalize f' >>= F) = _
  rw [hg', ok_bind, h1]

theorem tops_add {f f' : List Coin} {F : List Coin → Out} {x : Coin} (hF : TakesPrice sender F) (hm : AtLeast f f') (hfit : ∀ d, amountOf d f' < 2^128)
    (hx0 : 0 < x.amount) (hx1 : amountOf x.denom f' + x.amount < 2^128) :
    Tops sender f f' (fun f => nbNormalize f >>= fun f => nbAdd f x >>= F) := by
  intro s' ms hx
  rw [bind_ok] at hx
  obtain ⟨g, hg, hx⟩ := hx
  rw [bind_ok] at hx
  obtain ⟨k, hk, hx⟩ := hx
  obtain ⟨g', hg', ho, ha⟩ := normal hfit
  obtain ⟨hga, hgp⟩ := nbNormalize_ok hg
  obtain ⟨k', hk'⟩ := (add_iff (x := x) (by omega) ho).mpr (by rw [ha]; exact hx1)
  obtain ⟨hka, hkp⟩ := nbAdd_ok hk
  obtain ⟨ms', h1, h2⟩ := tops_gen hF (hkp hgp hx0) (add_once ho hk').1
    (fun d => by rw [hka, (nbAdd_ok hk').1, hga, ha]; omega) hm hx
  refine ⟨ms', ?_, h2⟩
  show (nbNormalize f' >>= fun f => nbAdd f x >>= F) = _
  rw [hg', ok_bind, hk', ok_bind, h1]

/-- A call that pays for an order or a token succeeds as well if more coins are attached, of whatever denoms: the new state is the same, all
payments are the same, and what has been added comes back to the caller in the same call. -/
theorem C168_surplus {s s' : State} (hr : Reach p me G s) {ctx : Ctx} {f f' : List Coin} {m : Exec} {msgs : List Msg} (hb : BuyerCall m)
    (hm : AtLeast f f') (hfit : Sums s f') (hx : execute p ctx sender f m s = .ok (s', msgs)) :
    ∃ msgs', execute p ctx sender f' m s = .ok (s', msgs') ∧ OnlyChange sender f f' msgs msgs' := by
  obtain ⟨_, hpb, hpc⟩ := C18_prices hr
  have norm : ∀ {F : List Coin → Out}, TakesPrice sender F → Tops sender f f' (fun f => nbNormalize f >>= F) := fun h => tops_norm h hm hfit.funds
  have sale : ∀ {x : Coin} {K : Out}, TakesPrice sender (fun f => takePrice f x >>= fun left => K >>= fun r => .ok (r.1, refund sender left r.2)) :=
    fun {x K} => priced_take (K := K) (fun _ => rfl)
  have save : ∀ {x : Coin} {S : State}, TakesPrice sender (fun f => takePrice f x >>= fun left => .ok (S, refund sender left [])) :=
    fun {x S} => priced_take (K := .ok (S, [])) (fun _ => rfl)
  have save2 : ∀ {x : Coin} {S : State} {A : Res Unit},
      TakesPrice sender (fun f => takePrice f x >>= fun left => A >>= fun _ => .ok (S, refund sender left [])) :=
    fun {x S A} => priced_take (K := A >>= fun _ => .ok (S, [])) (fun _ => by cases A <;> rfl)
  have bid : ∀ {c : Addr} {t : Bytes} {d : Details} {b : Bool}, Tops sender f f' (fun f => executeSetBid p ctx sender f c t d b s) := by
    intro c t d b
    unfold executeSetBid
    refine tops_bind fun _ _ => tops_bind fun _ _ => norm ?_
    dsimp only
    split
    · exact sale
    · cases b
      · exact save2
      · exact priced_err
  have cbid : ∀ {c : Addr} {d : Details} {b : Bool}, Tops sender f f' (fun f => executeSetCollectionBid p ctx sender f c d b s) := by
    intro c d b
    unfold executeSetCollectionBid
    refine tops_bind fun _ _ => tops_bind fun _ _ => norm ?_
    dsimp only
    refine priced_bind fun a _ => ?_
    cases a
    · cases b
      · exact save2
      · exact priced_err
    · exact sale
  have fin : Tops sender f f' (fun f => execute p ctx sender f m s) := by
    cases m <;> try exact hb.elim
    case acceptAsk id d =>
      unfold execute
      refine tops_bind fun d _ => ?_
      unfold executeAcceptAsk
      refine norm ?_
      exact priced_bind fun _ _ => priced_bind fun _ _ => sale
    case setBid c t d => exact tops_bind fun _ _ => tops_bind fun _ _ => bid
    case buySpecificNft c t d => exact tops_bind fun _ _ => tops_bind fun _ _ => bid
    case setCollectionBid c d => exact tops_bind fun _ _ => tops_bind fun _ _ => cbid
    case buyCollectionNft c d => exact tops_bind fun _ _ => tops_bind fun _ _ => cbid
    case updateBid id d =>
      refine tops_bind fun d _ => ?_
      unfold executeUpdateBid
      refine tops_bind fun b hb => tops_bind fun _ _ => tops_bind fun _ _ => ?_
      rw [orErr_ok] at hb
      refine tops_add ?_ hm hfit.funds (hpb _ _ hb) (hfit.bids _ _ hb)
      dsimp only
      split
      · exact sale
      · exact save
    case updateCollectionBid id d =>
      refine tops_bind fun d _ => ?_
      unfold executeUpdateCollectionBid
      refine tops_bind fun b hb => tops_bind fun _ _ => tops_bind fun _ _ => ?_
      rw [orErr_ok] at hb
      refine tops_add ?_ hm hfit.funds (hpc _ _ hb) (hfit.cbids _ _ hb)
      dsimp only
      refine priced_bind fun a _ => ?_
      cases a
      · exact save
      · exact sale
  exact fin s' msgs hx

end

namespace Sample
theorem more150 : AtLeast [⟨ust, 100⟩] [⟨ust, 150⟩, ⟨[9], 7⟩] := by
  intro d
  simp only [amountOf, Coin.inDenom]
  split <;> omega
theorem sums4 : Sums s4 [⟨ust, 150⟩, ⟨[9], 7⟩] := by
  have small : ∀ d, amountOf d [⟨ust, 150⟩, ⟨[9], 7⟩] ≤ 157 := by
    intro d
    simp only [amountOf, Coin.inDenom]
    split <;> split <;> omega
  refine ⟨fun d => Nat.lt_of_le_of_lt (small d) (by decide), fun id b h => ?_, fun id b h => ?_⟩
  · have : ∀ x ∈ s4.bids.l, x.2.details.price.amount ≤ 1000 := by decide +kernel
    have := this _ (AMap.mem_iff.mpr h)
    have := small b.details.price.denom
    have h2 : (2:Nat)^128 > 2000 := by decide
    dsimp only at *
    omega
  · have : ∀ x ∈ s4.cbids.l, x.2.details.price.amount ≤ 1000 := by decide +kernel
    have := this _ (AMap.mem_iff.mpr h)
    have := small b.details.price.denom
    have h2 : (2:Nat)^128 > 2000 := by decide
    dsimp only at *
    omega
/-- bob buys for 100 with 150 and a coin of another kind attached -/
example := C168_surplus r4 (m := .acceptAsk aid (det 100)) trivial more150 sums4
  (run_eq (c := ctx (some self)) (sender := bob) (funds := [⟨ust, 100⟩]) (by decide +kernel))
/-- bob raises the bid of 80 to 90 by 10 -/
example := C168_surplus r4 (m := .updateBid bid (det 90)) trivial (fun d => Nat.le_trans (by
    simp only [amountOf, Coin.inDenom]
    split <;> omega) (more150 d)) sums4 (run_eq (c := ctx (some self)) (sender := bob) (funds := [⟨ust, 10⟩]) (by decide +kernel))
end Sample

end Verif.V2

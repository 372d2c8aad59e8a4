/- Calls with and without registered hooks. Helper file, no properties. -/
import Verif.V1.Sale

namespace Verif.V1
open Verif Spec

variable {p : Params} {me : Addr} {honest : Addr → Prop}

/-- Forget hooks in an outcome. -/
def bare : State × List Msg → State × List Msg := fun r => (unhook r.1, core r.2)

section
variable {α β γ : Type}
theorem map_bind_res {x : Res α} {f : α → Res β} {g : β → γ} : (x >>= f).map g = x >>= fun a => (f a).map g := by
  cases x <;> rfl
theorem bind_congr_res {x : Res α} {f g : α → Res β} (h : ∀ a, f a = g a) : (x >>= f) = (x >>= g) := by
  cases x with
  | error e => rfl
  | ok a => exact h a
end

theorem bare_ok (s : State) (ms : List Msg) : (Except.ok (s, ms) : Out).map bare = .ok (unhook s, core ms) := rfl
theorem bare_err (e : Err) : (Except.error e : Out).map bare = .error e := rfl

theorem core_send (a : Addr) (cs : List Coin) (ms : List Msg) : core (.send a cs :: ms) = .send a cs :: core ms := rfl
theorem core_burn (cs : List Coin) (ms : List Msg) : core (.fairBurn cs :: ms) = .fairBurn cs :: core ms := rfl
theorem core_nft (c : Addr) (t : Bytes) (r : Addr) (ms : List Msg) : core (.nft c t r :: ms) = .nft c t r :: core ms := rfl
theorem core_nil : core [] = [] := rfl
theorem core_askHook (s : State) (a : Ask) (x : HookAction) : core (askHook s a x) = [] := core_hooks _ _
theorem core_bidHook (s : State) (a : Bid) (x : HookAction) : core (bidHook s a x) = [] := core_hooks _ _
theorem core_cbidHook (s : State) (a : CBid) (x : HookAction) : core (cbidHook s a x) = [] := core_hooks _ _
theorem core_saleHook (s : State) (a : Ask) (x : Addr) : core (saleHook s a x) = [] := core_hooks _ _
theorem askHook_un (s : State) (a : Ask) (x : HookAction) : askHook (unhook s) a x = [] := rfl
theorem bidHook_un (s : State) (a : Bid) (x : HookAction) : bidHook (unhook s) a x = [] := rfl
theorem cbidHook_un (s : State) (a : CBid) (x : HookAction) : cbidHook (unhook s) a x = [] := rfl

theorem payout_core {ctx : Ctx} {s s' : State} (hp : s'.params = s.params) {coll : Addr} {payment : Nat} {to : Addr}
    {finder : Option Addr} {fee : Option Nat} :
    payout ctx s' coll payment to finder fee = (payout ctx s coll payment to finder fee).map core := by
  have hfm : ∀ f n, core (finderMsg f n) = finderMsg f n := fun f n => (finder_pay f n).core
  unfold payout
  rw [hp]
  simp only [map_bind_res]
  refine bind_congr_res fun n => bind_congr_res fun info => bind_congr_res fun ff => ?_
  cases parseRoyalties info.royalty with
  | some roy =>
    simp only [map_bind_res]
    refine bind_congr_res fun a1 => bind_congr_res fun a2 => bind_congr_res fun a3 => bind_congr_res fun a4 =>
      bind_congr_res fun a5 => bind_congr_res fun a6 => bind_congr_res fun a7 => ?_
    simp only [Except.map, List.cons_append, core_burn, core_append, hfm, core_send, core_nil]
  | none =>
    simp only [map_bind_res]
    refine bind_congr_res fun a1 => bind_congr_res fun a2 => bind_congr_res fun a3 => bind_congr_res fun a4 => ?_
    simp only [Except.map, List.cons_append, core_burn, core_append, hfm, core_send, core_nil]

theorem finalizeSale_core {ctx : Ctx} {s s' : State} (hp : s'.params = s.params) (hs : s'.saleHooks = []) {a : Ask} {price : Nat}
    {buyer : Addr} {finder recipient : Option Addr} :
    finalizeSale ctx s' a price buyer finder recipient = (finalizeSale ctx s a price buyer finder recipient).map core := by
  unfold finalizeSale
  rw [payout_core hp]
  cases payout ctx s a.collection price (a.fundsRecipient.getD a.seller) finder a.findersFee with
  | error e => rfl
  | ok pay =>
    have : saleHook s' a buyer = [] := by unfold saleHook; rw [hs]; rfl
    show Except.ok _ = Except.ok _
    rw [this]
    simp only [core_append, core_nft, core_nil, core_saleHook]

theorem sale_core {ctx : Ctx} {s s' : State} (hp : s'.params = s.params) (hs : s'.saleHooks = []) {a : Ask} {price : Nat}
    {buyer : Addr} {finder recipient : Option Addr} {f g : List Msg → Out} (h : ∀ ms, f (core ms) = (g ms).map bare) :
    (finalizeSale ctx s' a price buyer finder recipient >>= f) =
      (finalizeSale ctx s a price buyer finder recipient >>= g).map bare := by
  rw [finalizeSale_core hp hs]
  cases finalizeSale ctx s a price buyer finder recipient with
  | error e => rfl
  | ok ms => exact h ms

theorem setBid_bare (ctx : Ctx) (sender : Addr) (funds : List Coin) (coll : Addr) (tok expires : Nat) (finder : Option Addr)
    (fee : Option Nat) (recipient : Option Addr) (buyNow : Bool) (s : State) :
    executeSetBid ctx sender funds coll tok expires finder fee recipient buyNow (unhook s) =
      (executeSetBid ctx sender funds coll tok expires finder fee recipient buyNow s).map bare := by
  have hsave : ∀ b msgs (s : State), saveBid b (core msgs) (unhook s) = bare (saveBid b msgs s) := by
    intro b msgs s
    simp only [saveBid, bare, core_append, core_bidHook, bidHook_un]; rfl
  have h1 : refundOld coll tok sender (unhook s) = bare (refundOld coll tok sender s) := by
    simp only [refundOld_eq, bare, (refund_pay _ _).core]; rfl
  unfold executeSetBid
  simp only [map_bind_res]
  refine bind_congr_res fun _ => bind_congr_res fun _ => bind_congr_res fun price => bind_congr_res fun _ => bind_congr_res fun _ => ?_
  rw [h1]
  generalize refundOld coll tok sender s = x
  obtain ⟨s1, msgs⟩ := x
  simp only [bare]
  show (match s1.asks.get? (coll, tok) with | some ask => _ | none => _) = _
  cases s1.asks.get? (coll, tok) with
  | none =>
    cases buyNow with
    | true => rfl
    | false => show Except.ok _ = Except.ok _; rw [hsave]
  | some ask =>
    simp only [map_bind_res]
    refine bind_congr_res fun _ => bind_congr_res fun _ => bind_congr_res fun _ => ?_
    cases ask.saleType with
    | auction =>
      simp only
      split
      · rfl
      · show Except.ok _ = Except.ok _; rw [hsave]
    | fixedPrice =>
      simp only
      split
      · rfl
      · split
        · show Except.ok _ = Except.ok _; rw [hsave]
        · simp only [map_bind_res]
          refine bind_congr_res fun _ => bind_congr_res fun _ => ?_
          rw [← map_bind_res]
          refine sale_core ?_ ?_ ?_
          · rfl
          · rfl
          intro ms
          show Except.ok _ = Except.ok _
          rw [bare, core_append]; rfl

theorem execute_bare (ctx : Ctx) (sender : Addr) (funds : List Coin) (m : Exec) (s : State) :
    execute p ctx sender funds m (unhook s) = (execute p ctx sender funds m s).map bare := by
  cases m with
  | setAsk ty coll tok price recipient reserveFor fee expires =>
    simp only [execute, executeSetAsk, map_bind_res, bare_ok, core_append, core_askHook, askHook_un]
    refine bind_congr_res fun _ => bind_congr_res fun _ => bind_congr_res fun _ => ?_
    refine bind_congr_res fun _ => bind_congr_res fun _ => bind_congr_res fun _ => bind_congr_res fun _ => bind_congr_res fun _ => bind_congr_res fun _ => ?_
    refine bind_congr_res fun paid => bind_congr_res fun _ => bind_congr_res fun _ => bind_congr_res fun _ => ?_
    split <;> rfl
  | removeAsk coll tok =>
    simp only [execute, executeRemoveAsk, map_bind_res, bare_ok, core_askHook, askHook_un]; rfl
  | updateAskPrice coll tok price =>
    simp only [execute, executeUpdateAskPrice, map_bind_res, bare_ok, core_askHook, askHook_un]; rfl
  | setBid coll tok expires ty finder fee =>
    simp only [execute, map_bind_res, setBid_bare]
  | buyNow coll tok expires finder fee =>
    simp only [execute, map_bind_res, setBid_bare]
  | buyFor coll tok expires finder fee recipient =>
    simp only [execute, map_bind_res, setBid_bare]
  | removeBid coll tok =>
    simp only [execute, executeRemoveBid, map_bind_res, bare_ok, core_send, core_bidHook, bidHook_un]; rfl
  | acceptBid coll tok bidder finder =>
    simp only [execute, executeAcceptBid, map_bind_res]
    refine bind_congr_res fun _ => bind_congr_res fun _ => bind_congr_res fun _ => ?_
    refine bind_congr_res fun _ => bind_congr_res fun _ => bind_congr_res fun _ => bind_congr_res fun bid => bind_congr_res fun _ => ?_
    rw [← map_bind_res]
    refine sale_core ?_ ?_ ?_
    · rfl
    · rfl
    · exact fun ms => rfl
  | rejectBid coll tok bidder =>
    simp only [execute, executeRejectBid, map_bind_res, bare_ok, core_send, core_bidHook, bidHook_un]; rfl
  | setCollectionBid coll expires fee =>
    simp only [execute, executeSetCollectionBid, map_bind_res, bare_ok, core_append, core_cbidHook, cbidHook_un]
    refine bind_congr_res fun c => bind_congr_res fun _ => bind_congr_res fun _ => bind_congr_res fun _ => bind_congr_res fun _ => ?_
    have hc : (unhook s).cbids.get? (c, sender) = s.cbids.get? (c, sender) := rfl
    rw [hc]
    cases s.cbids.get? (c, sender) <;> rfl
  | removeCollectionBid coll =>
    simp only [execute, executeRemoveCollectionBid, map_bind_res, bare_ok, core_send, core_cbidHook, cbidHook_un]; rfl
  | acceptCollectionBid coll tok bidder finder =>
    simp only [execute, executeAcceptCollectionBid, map_bind_res]
    refine bind_congr_res fun _ => bind_congr_res fun _ => bind_congr_res fun _ => ?_
    refine bind_congr_res fun _ => bind_congr_res fun _ => bind_congr_res fun _ => bind_congr_res fun bid => bind_congr_res fun _ => ?_
    rw [← map_bind_res]
    refine sale_core ?_ ?_ ?_
    · rfl
    · rfl
    · exact fun ms => rfl
  | syncAsk coll tok =>
    simp only [execute, executeSyncAsk, map_bind_res, bare_ok, core_askHook, askHook_un]; rfl
  | removeStaleAsk coll tok =>
    simp only [execute, executeRemoveStaleAsk, map_bind_res, bare_ok, core_askHook, askHook_un]; rfl
  | removeStaleBid coll tok bidder =>
    simp only [execute, executeRemoveStaleBid, map_bind_res, bare_ok, core_send, core_bidHook, bidHook_un]; rfl
  | removeStaleCollectionBid coll bidder =>
    simp only [execute, executeRemoveStaleCollectionBid, map_bind_res, bare_ok, core_send, core_cbidHook, cbidHook_un]; rfl

/-- Notifications come last. -/
theorem hooks_last {ctx : Ctx} {sender : Addr} {funds : List Coin} {m : Exec} {s s' : State} {msgs : List Msg}
    (e : Eff p ctx sender funds s m s' msgs) : ∃ hs, msgs = core msgs ++ hs ∧ AllHooks hs := by
  have fin : ∀ a b : List Msg, AllHooks b → (∃ x, a = core a ++ x ∧ AllHooks x) → ∃ x, a ++ b = core (a ++ b) ++ x ∧ AllHooks x := by
    rintro a b hb ⟨x, hx, hax⟩
    refine ⟨x ++ b, ?_, ?_⟩
    · rw [core_append, hb.core, List.append_nil, ← List.append_assoc, ← hx]
    · intro m hm
      rcases List.mem_append.mp hm with h | h
      · exact hax m h
      · exact hb m h
  have base : ∀ a b : List Msg, core a = a → AllHooks b → ∃ x, a ++ b = core (a ++ b) ++ x ∧ AllHooks x := by
    intro a b ha hb
    exact fin a b hb ⟨[], by rw [ha, List.append_nil], fun m hm => by cases hm⟩
  have sold : ∀ {a : Ask} {price : Nat} {buyer : Addr} {finder recipient : Option Addr} {ms pre : List Msg},
      Sold ctx s a price buyer finder recipient ms → AllPay pre → ∃ x, pre ++ ms = core (pre ++ ms) ++ x ∧ AllHooks x := by
    intro a price buyer finder recipient ms pre h hpre
    cases h with
    | mk pay h =>
      rw [← List.append_assoc]
      refine base _ _ ?_ (allHooks_map _ _)
      rw [core_append, core_append, hpre.core, h.pay.core]; rfl
  cases e with
  | setAsk =>
    refine base _ _ ?_ (allHooks_map _ _)
    split <;> rfl
  | removeAsk => exact base [] _ rfl (allHooks_map _ _)
  | updatePrice => exact base [] _ rfl (allHooks_map _ _)
  | bidSaved => exact base _ _ (refund_pay _ _).core (allHooks_map _ _)
  | bought m b price ask sale hm hv hfinder hfee hfunds hpos hmin ha hlive hact hres hty hprice hown hsale =>
    exact sold hsale (refund_pay _ _)
  | removeBid => exact base [_] _ rfl (allHooks_map _ _)
  | acceptBid coll tok bidder finder bid sale hv hf hown htr hb hlive hsale =>
    exact sold (pre := []) hsale (fun m hm => by cases hm)
  | rejectBid => exact base [_] _ rfl (allHooks_map _ _)
  | setCBid =>
    refine base _ _ ?_ (allHooks_map _ _)
    split <;> rfl
  | removeCBid => exact base [_] _ rfl (allHooks_map _ _)
  | acceptCBid coll tok bidder finder bid sale hv hf hown htr hb hlive hsale =>
    exact sold (pre := []) hsale (fun m hm => by cases hm)
  | syncAsk => exact base [] _ rfl (allHooks_map _ _)
  | staleAsk => exact base [] _ rfl (allHooks_map _ _)
  | staleBid => exact base [_, _] _ rfl (allHooks_map _ _)
  | staleCBid => exact base [_, _] _ rfl (allHooks_map _ _)

theorem hooks_skip {S : Sys State Exec Sudo} {hs : List Msg} (h : AllHooks hs) (w : World State) (rest : List Msg) :
    S.Steps (w, hs ++ rest) (w, rest) := by
  induction hs with
  | nil => exact .refl _
  | cons m hs ih =>
    have h1 := h m List.mem_cons_self
    have h2 := ih (fun x hx => h x (List.mem_cons_of_mem _ hx))
    refine Sys.Steps.trans (.single (Sys.Step.ret (S := S) w m (hs ++ rest) ?_)) h2
    cases m <;> first | trivial | exact absurd h1 (fun h => h)

end Verif.V1

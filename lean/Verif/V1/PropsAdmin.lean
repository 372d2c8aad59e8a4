/-
Marketplace v1, properties about deployment and governance: C96, C97.
-/
import Verif.V1.Hooks
import Verif.V1.Sample
import Verif.Common.AddrLemmas

namespace Verif.V1
open Verif Spec

variable {p : Params} {me : Addr} {honest : Addr → Prop}
variable {ctx : Ctx} {s s' : State} {msgs : List Msg}

/-! ### C96 -/

/-- A deployment stores the parameters as given (fees of at most 10000 basis points, ordered ranges, a time span for stale bids),
the given operators, once each, at most the one sale hook given, and no orders. -/
theorem C96_init {i : Init} (h : instantiate p i = .ok s) :
    i.tradingFeeBps ≤ 10000 ∧ i.maxFindersFeeBps ≤ 10000 ∧ i.bidRemovalRewardBps ≤ 10000 ∧
    i.askExpiry.min ≤ i.askExpiry.max ∧ i.bidExpiry.min ≤ i.bidExpiry.max ∧ (∃ n, i.staleBidDuration = .time n) ∧
    s.params.tradingFee = i.tradingFeeBps * 10^16 ∧ s.params.maxFindersFee = i.maxFindersFeeBps * 10^16 ∧
    s.params.bidRemovalReward = i.bidRemovalRewardBps * 10^16 ∧ s.params.askExpiry = i.askExpiry ∧
    s.params.bidExpiry = i.bidExpiry ∧ s.params.minPrice = i.minPrice ∧ s.params.listingFee = i.listingFee ∧
    s.params.staleBidDuration = i.staleBidDuration ∧
    (∀ a, a ∈ s.params.operators ↔ a ∈ i.operators) ∧ s.params.operators.Nodup ∧ (∀ a ∈ i.operators, p.valid a = true) ∧
    s.saleHooks = i.saleHook.toList ∧ (∀ a, i.saleHook = some a → p.valid a = true) ∧
    s.askHooks = [] ∧ s.bidHooks = [] ∧ s.cbidHooks = [] ∧
    (∀ k, s.asks.get? k = none) ∧ (∀ k, s.bids.get? k = none) ∧ (∀ k, s.cbids.get? k = none) := by
  simp only [instantiate, bind_ok, ensure_ok, ExpiryRange.validate] at h
  obtain ⟨_, h1, _, h2, _, h3, _, h4, _, h5, _, h6, ops, hops, hooks, hh, h⟩ := h
  obtain ⟨o1, o2, o3⟩ := mapValidate_ok hops
  cases h
  have hd : ∃ n, i.staleBidDuration = .time n := by
    cases hd : i.staleBidDuration with
    | height n => rw [hd] at h6; cases h6
    | time n => exact ⟨n, rfl⟩
  have hk : hooks = i.saleHook.toList ∧ ∀ a, i.saleHook = some a → p.valid a = true := by
    cases hs : i.saleHook with
    | none => rw [hs] at hh; cases hh; exact ⟨rfl, by simp⟩
    | some a =>
      rw [hs] at hh
      simp only [bind_ok, addrValidate_ok, addHook, ensure_ok] at hh
      obtain ⟨b, ⟨hv, rfl⟩, _, _, hh⟩ := hh
      cases hh
      exact ⟨rfl, by rintro x ⟨⟩; exact hv⟩
  exact ⟨h2, h1, h3, h4, h5, hd, rfl, rfl, rfl, rfl, rfl, rfl, rfl, rfl, o1, o2, o3, hk.1, hk.2, rfl, rfl, rfl,
    fun _ => rfl, fun _ => rfl, fun _ => rfl⟩

/-- Operators and hooks are registered at most once. -/
structure Spec.Once (s : State) : Prop where
  operators : s.params.operators.Nodup
  ask : s.askHooks.Nodup
  bid : s.bidHooks.Nodup
  sale : s.saleHooks.Nodup

theorem nodup_snoc {l : List Addr} {a : Addr} (h : l.Nodup) (ha : a ∉ l) : (l ++ [a]).Nodup := by
  rw [List.nodup_append]
  refine ⟨h, by simp, ?_⟩
  rintro x hx y hy rfl
  rw [List.mem_singleton] at hy
  subst hy; exact ha hx

theorem C96_once (hr : Reach p me s) : Once s := by
  obtain ⟨i, s0, h0, ha⟩ := hr
  induction ha with
  | refl =>
    obtain ⟨-, -, -, -, -, -, -, -, -, -, -, -, -, -, -, h1, -, h2, -, h3, h4, -⟩ := C96_init h0
    refine ⟨h1, by rw [h3]; simp, by rw [h4]; simp, ?_⟩
    rw [h2]; cases i.saleHook <;> simp
  | step _ hs ih =>
    cases hs with
    | call hself hne h =>
      have e := execute_eff h
      cases e <;> exact ⟨ih.1, ih.2, ih.3, ih.4⟩
    | sudo hself h =>
      obtain ⟨e, -⟩ := sudo_eff h
      cases e with
      | params u c hops => exact ⟨by show c.operators.Nodup; rw [hops]; exact ih.1, ih.2, ih.3, ih.4⟩
      | addOp a hv hn => exact ⟨nodup_snoc ih.1 hn, ih.2, ih.3, ih.4⟩
      | removeOp a hv hn => exact ⟨ih.1.erase _, ih.2, ih.3, ih.4⟩
      | addSale a hv hn => exact ⟨ih.1, ih.2, ih.3, nodup_snoc ih.4 hn⟩
      | addAsk a hv hn => exact ⟨ih.1, nodup_snoc ih.2 hn, ih.3, ih.4⟩
      | addBid a hv hn => exact ⟨ih.1, ih.2, nodup_snoc ih.3 hn, ih.4⟩
      | removeSale a hv hn => exact ⟨ih.1, ih.2, ih.3, ih.4.erase _⟩
      | removeAsk a hv hn => exact ⟨ih.1, ih.2.erase _, ih.3, ih.4⟩
      | removeBid a hv hn => exact ⟨ih.1, ih.2, ih.3.erase _, ih.4⟩

/-- `l'` is `l` with `a` added, and `a` was not in it. -/
def Spec.Added (a : Addr) (l l' : List Addr) : Prop := a ∉ l ∧ ∀ x, x ∈ l' ↔ x = a ∨ x ∈ l
/-- `l'` is `l` with `a` removed, and `a` was in it. -/
def Spec.Removed (a : Addr) (l l' : List Addr) : Prop := a ∈ l ∧ ∀ x, x ∈ l' ↔ x ≠ a ∧ x ∈ l

theorem added {a : Addr} {l : List Addr} (h : a ∉ l) : Added a l (l ++ [a]) :=
  ⟨h, fun x => by rw [List.mem_append, List.mem_singleton]; exact Or.comm⟩
theorem removed {a : Addr} {l : List Addr} (hn : l.Nodup) (h : a ∈ l) : Removed a l (l.erase a) :=
  ⟨h, fun _ => hn.mem_erase_iff⟩

/-- Each governance message does what it says and changes nothing else: it adds or removes that operator or hook, which must be
a valid address not (for removal: already) registered. -/
theorem C96_lists (hr : Reach p me s) {a : Addr} :
    (sudo p ctx (.addOperator a) s = .ok (s', msgs) → p.valid a = true ∧ Added a s.params.operators s'.params.operators ∧
      s' = { s with params := { s.params with operators := s'.params.operators } }) ∧
    (sudo p ctx (.removeOperator a) s = .ok (s', msgs) → p.valid a = true ∧ Removed a s.params.operators s'.params.operators ∧
      s' = { s with params := { s.params with operators := s'.params.operators } }) ∧
    (sudo p ctx (.addAskHook a) s = .ok (s', msgs) → p.valid a = true ∧ Added a s.askHooks s'.askHooks ∧
      s' = { s with askHooks := s'.askHooks }) ∧
    (sudo p ctx (.removeAskHook a) s = .ok (s', msgs) → p.valid a = true ∧ Removed a s.askHooks s'.askHooks ∧
      s' = { s with askHooks := s'.askHooks }) ∧
    (sudo p ctx (.addBidHook a) s = .ok (s', msgs) → p.valid a = true ∧ Added a s.bidHooks s'.bidHooks ∧
      s' = { s with bidHooks := s'.bidHooks }) ∧
    (sudo p ctx (.removeBidHook a) s = .ok (s', msgs) → p.valid a = true ∧ Removed a s.bidHooks s'.bidHooks ∧
      s' = { s with bidHooks := s'.bidHooks }) ∧
    (sudo p ctx (.addSaleHook a) s = .ok (s', msgs) → p.valid a = true ∧ Added a s.saleHooks s'.saleHooks ∧
      s' = { s with saleHooks := s'.saleHooks }) ∧
    (sudo p ctx (.removeSaleHook a) s = .ok (s', msgs) → p.valid a = true ∧ Removed a s.saleHooks s'.saleHooks ∧
      s' = { s with saleHooks := s'.saleHooks }) := by
  have ho := C96_once hr
  refine ⟨?_, ?_, ?_, ?_, ?_, ?_, ?_, ?_⟩ <;> intro h <;> obtain ⟨e, -⟩ := sudo_eff h <;> cases e
  case refine_1 hv hn => exact ⟨hv, added hn, rfl⟩
  case refine_2 hv hn => exact ⟨hv, removed ho.1 hn, rfl⟩
  case refine_3 hv hn => exact ⟨hv, added hn, rfl⟩
  case refine_4 hv hn => exact ⟨hv, removed ho.2 hn, rfl⟩
  case refine_5 hv hn => exact ⟨hv, added hn, rfl⟩
  case refine_6 hv hn => exact ⟨hv, removed ho.3 hn, rfl⟩
  case refine_7 hv hn => exact ⟨hv, added hn, rfl⟩
  case refine_8 hv hn => exact ⟨hv, removed ho.4 hn, rfl⟩

/-- Conversely these messages are never refused for a valid address: adding one not registered, removing a registered one. -/
theorem C96_accepted {a : Addr} (hv : p.valid a = true) :
    (∃ r, sudo p ctx (if a ∈ s.params.operators then .removeOperator a else .addOperator a) s = .ok r) ∧
    (∃ r, sudo p ctx (if a ∈ s.askHooks then .removeAskHook a else .addAskHook a) s = .ok r) ∧
    (∃ r, sudo p ctx (if a ∈ s.bidHooks then .removeBidHook a else .addBidHook a) s = .ok r) ∧
    (∃ r, sudo p ctx (if a ∈ s.saleHooks then .removeSaleHook a else .addSaleHook a) s = .ok r) := by
  refine ⟨?_, ?_, ?_, ?_⟩ <;> split
  all_goals
    rename_i hm
    simp [sudo, addOperator, removeOperator, addHook, removeHook, ensure, addrValidate, hv, hm, bind, Except.bind]

/-- UpdateParams leaves orders and hooks alone and refuses fees above 10000 basis points and unordered ranges. -/
theorem C96_update {u : Update} (h : sudo p ctx (.updateParams u) s = .ok (s', msgs)) :
    s' = { s with params := s'.params } ∧ msgs = [] ∧ (∀ n, u.tradingFeeBps = some n → n ≤ 10000) ∧
    (∀ n, u.maxFindersFeeBps = some n → n ≤ 10000) ∧ (∀ n, u.bidRemovalRewardBps = some n → n ≤ 10000) ∧
    (∀ r, u.askExpiry = some r → r.min ≤ r.max) ∧ (∀ r, u.bidExpiry = some r → r.min ≤ r.max) := by
  obtain ⟨e, e2⟩ := sudo_eff h
  cases e with
  | params u c hops h1 h2 h3 h4 h5 h6 h7 h8 b1 b2 b3 b4 b5 => exact ⟨rfl, e2, b1, b2, b3, b4, b5⟩

example := C96_init Sample.init0
example := C96_once Sample.r6
example := (C96_lists Sample.r6 (a := Sample.hk)).2.2.2.2.2.1
  (Sample.srun_eq (c := Sample.ctx 1002) (s := Sample.s6) (by decide +kernel))
example := (C96_lists Sample.r6 (a := Sample.bob)).1
  (Sample.srun_eq (c := Sample.ctx 1002) (s := Sample.s6) (by decide +kernel))
example := C96_accepted (p := Sample.P) (ctx := Sample.ctx 5) (s := Sample.s6) (a := Sample.hk) (by decide +kernel)
example := C96_update (u := { tradingFeeBps := some 300, bidExpiry := some ⟨5, 6⟩, staleBidDuration := some 3 })
  (Sample.srun_eq (c := Sample.ctx 1002) (s := Sample.s6) (by decide +kernel))

/-! ### C97 -/

/-- Full statement of C97: a successful UpdateParams that names operators makes exactly these the operators. -/
def C97_statement : Prop :=
  ∀ (p : Params) (me : Addr) (s s' : State) (ctx : Ctx) (u : Update) (msgs : List Msg) (ops : List Addr), Reach p me s →
    u.operators = some ops → sudo p ctx (.updateParams u) s = .ok (s', msgs) → ∀ a, a ∈ s'.params.operators ↔ a ∈ ops

/-- replacing `oper` by bob succeeds and leaves `oper` in office -/
theorem C97_violated : ¬ C97_statement := by
  intro h
  have h1 : Sample.sok (Sample.ctx 1000) (.updateParams { operators := some [Sample.bob] }) Sample.s6 = true := by decide +kernel
  have := (h _ _ _ _ _ { operators := some [Sample.bob] } _ [Sample.bob] Sample.r6 rfl (Sample.srun_eq h1) Sample.bob).mpr (by simp)
  exact absurd this (by decide +kernel)

/-- Missing: the operators given in UpdateParams are ignored, whatever they are (even if they are not valid addresses). -/
theorem C97_partial {u : Update} {ops : Option (List Addr)} (h : sudo p ctx (.updateParams u) s = .ok (s', msgs)) :
    s'.params.operators = s.params.operators ∧
    sudo p ctx (.updateParams { u with operators := ops }) s = .ok (s', msgs) := by
  refine ⟨?_, h⟩
  obtain ⟨e, -⟩ := sudo_eff h
  cases e with
  | params u c hops => exact hops

example := C97_partial (u := { operators := some [Sample.bob], minPrice := some 7 }) (ops := none)
  (Sample.srun_eq (c := Sample.ctx 1002) (s := Sample.s6) (by decide +kernel))

end Verif.V1

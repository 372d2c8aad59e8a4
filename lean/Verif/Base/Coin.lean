/-
Coins, payment checks (cosmwasm_std::has_coins, cw_utils payment.rs) and `cw_utils::NativeBalance`.
-/
import Verif.Base.Bytes
import Verif.Base.Num

namespace Verif

structure Coin where
  denom : Denom
  amount : Nat
  deriving DecidableEq, Repr

/-- Amount of a single coin counted in denom `d`. -/
def Coin.inDenom (c : Coin) (d : Denom) : Nat := if c.denom = d then c.amount else 0

/-- Total amount of denom `d` in a list of coins. -/
def amountOf (d : Denom) : List Coin → Nat
  | [] => 0
  | c :: cs => c.inDenom d + amountOf d cs

theorem amountOf_append (d : Denom) : ∀ a b : List Coin, amountOf d (a ++ b) = amountOf d a + amountOf d b
  | [], b => by simp [amountOf]
  | c :: cs, b => by simp [amountOf, amountOf_append d cs b, Nat.add_assoc]

theorem amountOf_singleton (d : Denom) (c : Coin) : amountOf d [c] = c.inDenom d := by simp [amountOf]

theorem amountOf_perm {d : Denom} {a b : List Coin} (h : a.Perm b) : amountOf d a = amountOf d b := by
  induction h with
  | nil => rfl
  | cons x _ ih => simp [amountOf, ih]
  | swap x y l => simp [amountOf]; omega
  | trans _ _ ih1 ih2 => exact ih1.trans ih2

/-- `cosmwasm_std::has_coins(coins, required)` -/
def hasCoins (coins : List Coin) (req : Coin) : Bool :=
  match coins.find? (fun c => decide (c.denom = req.denom)) with
  | some c => decide (req.amount ≤ c.amount)
  | none => false

theorem hasCoins_single {c req : Coin} :
    hasCoins [c] req = true ↔ c.denom = req.denom ∧ req.amount ≤ c.amount := by
  unfold hasCoins
  by_cases h : c.denom = req.denom <;> simp [h]

/-- `cw_utils::nonpayable` -/
def nonpayable (funds : List Coin) : Res Unit := ensure (funds = []) .payment

/-- `cw_utils::one_coin` -/
def oneCoin (funds : List Coin) : Res Coin :=
  match funds with
  | [c] => if c.amount = 0 then .error .payment else .ok c
  | _ => .error .payment

/-- `cw_utils::must_pay` -/
def mustPay (funds : List Coin) (denom : Denom) : Res Nat :=
  oneCoin funds >>= fun c => if c.denom = denom then .ok c.amount else .error .payment

/-- `cw_utils::may_pay` -/
def mayPay (funds : List Coin) (denom : Denom) : Res Nat :=
  match funds with
  | [] => .ok 0
  | [c] => if c.denom = denom then .ok c.amount else .error .payment
  | _ => .error .payment

theorem nonpayable_ok {funds : List Coin} {u : Unit} : nonpayable funds = .ok u ↔ funds = [] := ensure_ok

theorem oneCoin_ok {funds : List Coin} {c : Coin} : oneCoin funds = .ok c ↔ funds = [c] ∧ 0 < c.amount := by
  unfold oneCoin
  split
  case h_1 c' =>
    split
    · constructor
      · intro h; cases h
      · rintro ⟨h, hp⟩; cases h; omega
    · constructor
      · intro h; cases h; exact ⟨rfl, by omega⟩
      · rintro ⟨h, _⟩; cases h; rfl
  case h_2 h =>
    constructor
    · intro h; cases h
    · rintro ⟨e, _⟩; exact absurd e (h c)

theorem mustPay_ok {funds : List Coin} {d : Denom} {n : Nat} :
    mustPay funds d = .ok n ↔ funds = [⟨d, n⟩] ∧ 0 < n := by
  unfold mustPay
  rw [bind_ok]
  constructor
  · rintro ⟨c, hc, h⟩
    rw [oneCoin_ok] at hc
    obtain ⟨rfl, hp⟩ := hc
    split at h
    case isTrue hd => cases h; subst hd; exact ⟨rfl, hp⟩
    case isFalse => cases h
  · rintro ⟨rfl, hp⟩
    exact ⟨⟨d, n⟩, by rw [oneCoin_ok]; exact ⟨rfl, hp⟩, by simp⟩

theorem mayPay_ok {funds : List Coin} {d : Denom} {n : Nat} :
    mayPay funds d = .ok n ↔ (funds = [] ∧ n = 0) ∨ funds = [⟨d, n⟩] := by
  unfold mayPay
  split
  case h_1 => constructor
              · intro h; cases h; exact Or.inl ⟨rfl, rfl⟩
              · rintro (⟨_, rfl⟩ | h)
                · rfl
                · cases h
  case h_2 c =>
    split
    case isTrue hd =>
      subst hd
      constructor
      · intro h; cases h; exact Or.inr rfl
      · rintro (⟨h, _⟩ | h)
        · cases h
        · simp only [List.cons.injEq, and_true] at h; rw [h]
    case isFalse hd =>
      constructor
      · intro h; cases h
      · rintro (⟨h, _⟩ | h)
        · cases h
        · cases h; exact absurd rfl hd
  case h_3 h1 h2 =>
    constructor
    · intro h; cases h
    · rintro (⟨h, _⟩ | h)
      · exact absurd h h1
      · exact absurd h (h2 _)

/-! ### NativeBalance (cw-utils balance.rs) -/

def denomLe (a b : Coin) : Bool := bLe a.denom b.denom

/-- Merge adjacent coins of equal denom; `Uint128` addition panics on overflow. -/
def mergeDups : List Coin → Res (List Coin)
  | [] => .ok []
  | c :: cs => mergeDups cs >>= fun r =>
    match r with
    | [] => .ok [c]
    | e :: es =>
      if c.denom = e.denom then u128 (c.amount + e.amount) >>= fun n => .ok (⟨c.denom, n⟩ :: es)
      else .ok (c :: e :: es)

/-- `NativeBalance::normalize`: drop zeros, sort by denom, merge duplicates. -/
def nbNormalize (cs : List Coin) : Res (List Coin) :=
  mergeDups (sortBy denomLe (cs.filter (fun c => decide (c.amount ≠ 0))))

/-- `NativeBalance + Coin` -/
def nbAdd (cs : List Coin) (x : Coin) : Res (List Coin) :=
  match cs with
  | [] => .ok [x]
  | c :: t =>
    if c.denom = x.denom then u128 (c.amount + x.amount) >>= fun n => .ok (⟨c.denom, n⟩ :: t)
    else if t.any (fun y => decide (y.denom = x.denom)) then nbAdd t x >>= fun r => .ok (c :: r)
    else .ok (insertBy denomLe x (c :: t))

/-- `NativeBalance - Coin` -/
def nbSub (cs : List Coin) (x : Coin) : Res (List Coin) :=
  match cs with
  | [] => .error .overflow
  | c :: t =>
    if c.denom = x.denom then
      subChk c.amount x.amount >>= fun r => .ok (if r = 0 then t else ⟨c.denom, r⟩ :: t)
    else nbSub t x >>= fun r => .ok (c :: r)

/-- `NativeBalance::is_empty` -/
def nbIsEmpty (cs : List Coin) : Bool := cs.all (fun c => decide (c.amount = 0))

theorem amountOf_filter_nonzero (d : Denom) : ∀ cs : List Coin,
    amountOf d (cs.filter (fun c => decide (c.amount ≠ 0))) = amountOf d cs
  | [] => rfl
  | c :: t => by
    by_cases h : c.amount = 0
    · rw [List.filter_cons_of_neg (by simp [h]), amountOf_filter_nonzero d t]
      simp [amountOf, Coin.inDenom, h]
    · rw [List.filter_cons_of_pos (by simp [h]), amountOf, amountOf_filter_nonzero d t, amountOf]

theorem mergeDups_ok : ∀ {cs r : List Coin}, mergeDups cs = .ok r →
    (∀ d, amountOf d r = amountOf d cs) ∧ ((∀ c ∈ cs, 0 < c.amount) → ∀ c ∈ r, 0 < c.amount)
  | [], r, h => by
    simp [mergeDups] at h; subst h; simp
  | c :: cs, r, h => by
    rw [mergeDups, bind_ok] at h
    obtain ⟨r', hr', h⟩ := h
    obtain ⟨ha, hp⟩ := mergeDups_ok hr'
    cases r' with
    | nil =>
      simp only [Except.ok.injEq] at h; subst h
      constructor
      · intro d; simp [amountOf, ← ha d]
      · intro hpos; simpa using hpos c (by simp)
    | cons e es =>
      simp only at h
      split at h
      case isTrue he =>
        rw [bind_ok] at h
        obtain ⟨n, hn, h⟩ := h
        rw [u128_ok] at hn
        obtain ⟨_, rfl⟩ := hn
        simp only [Except.ok.injEq] at h; subst h
        constructor
        · intro d
          rw [amountOf, amountOf, ← ha d, amountOf]
          simp only [Coin.inDenom, he]
          split <;> omega
        · intro hpos x hx
          cases List.mem_cons.mp hx with
          | inl hx => subst hx; have := hpos c (by simp); simp; omega
          | inr hx => exact hp (fun y hy => hpos y (List.mem_cons_of_mem _ hy)) x (List.mem_cons_of_mem _ hx)
      case isFalse he =>
        simp only [Except.ok.injEq] at h; subst h
        constructor
        · intro d; rw [amountOf, ha d, amountOf]
        · intro hpos x hx
          cases List.mem_cons.mp hx with
          | inl hx => subst hx; exact hpos _ (by simp)
          | inr hx => exact hp (fun y hy => hpos y (List.mem_cons_of_mem _ hy)) x hx

/-- Normalising preserves the amount of every denom and leaves only positive coins. -/
theorem nbNormalize_ok {cs r : List Coin} (h : nbNormalize cs = .ok r) :
    (∀ d, amountOf d r = amountOf d cs) ∧ (∀ c ∈ r, 0 < c.amount) := by
  obtain ⟨ha, hp⟩ := mergeDups_ok h
  constructor
  · intro d
    rw [ha d, amountOf_perm (sortBy_perm _), amountOf_filter_nonzero]
  · apply hp
    intro c hc
    rw [mem_sortBy] at hc
    simp at hc; omega

theorem nbAdd_ok : ∀ {cs : List Coin} {x : Coin} {r : List Coin}, nbAdd cs x = .ok r →
    (∀ d, amountOf d r = amountOf d cs + x.inDenom d) ∧
    ((∀ c ∈ cs, 0 < c.amount) → 0 < x.amount → ∀ c ∈ r, 0 < c.amount)
  | [], x, r, h => by
    simp [nbAdd] at h; subst h
    simp [amountOf]
  | c :: t, x, r, h => by
    unfold nbAdd at h
    split at h
    case isTrue hd =>
      rw [bind_ok] at h
      obtain ⟨n, hn, h⟩ := h
      rw [u128_ok] at hn
      obtain ⟨_, rfl⟩ := hn
      simp only [Except.ok.injEq] at h; subst h
      constructor
      · intro d
        rw [amountOf, amountOf]
        simp only [Coin.inDenom, hd]
        split <;> omega
      · intro hpos hx y hy
        cases List.mem_cons.mp hy with
        | inl hy => subst hy; simp; omega
        | inr hy => exact hpos y (List.mem_cons_of_mem _ hy)
    case isFalse hd =>
      split at h
      case isTrue =>
        rw [bind_ok] at h
        obtain ⟨r', hr', h⟩ := h
        simp only [Except.ok.injEq] at h; subst h
        obtain ⟨ha, hp⟩ := nbAdd_ok hr'
        constructor
        · intro d; rw [amountOf, ha d, amountOf]; omega
        · intro hpos hx y hy
          cases List.mem_cons.mp hy with
          | inl hy => subst hy; exact hpos _ (by simp)
          | inr hy => exact hp (fun z hz => hpos z (List.mem_cons_of_mem _ hz)) hx y hy
      case isFalse =>
        simp only [Except.ok.injEq] at h; subst h
        have hperm := insertBy_perm (le := denomLe) x (c :: t)
        constructor
        · intro d
          rw [amountOf_perm hperm, amountOf]; omega
        · intro hpos hx y hy
          have := hperm.mem_iff.mp hy
          cases List.mem_cons.mp this with
          | inl hy => subst hy; exact hx
          | inr hy => exact hpos y hy

theorem nbSub_ok : ∀ {cs : List Coin} {x : Coin} {r : List Coin}, nbSub cs x = .ok r →
    (∀ d, amountOf d r + x.inDenom d = amountOf d cs) ∧
    ((∀ c ∈ cs, 0 < c.amount) → ∀ c ∈ r, 0 < c.amount)
  | [], x, r, h => by simp [nbSub] at h
  | c :: t, x, r, h => by
    unfold nbSub at h
    split at h
    case isTrue hd =>
      rw [bind_ok] at h
      obtain ⟨n, hn, h⟩ := h
      rw [subChk_ok] at hn
      obtain ⟨hle, rfl⟩ := hn
      simp only [Except.ok.injEq] at h
      split at h
      case isTrue hz =>
        subst h
        constructor
        · intro d; rw [amountOf]; simp only [Coin.inDenom, hd]; split <;> omega
        · intro hpos y hy; exact hpos y (List.mem_cons_of_mem _ hy)
      case isFalse hz =>
        subst h
        constructor
        · intro d; rw [amountOf, amountOf]; simp only [Coin.inDenom, hd]; split <;> omega
        · intro hpos y hy
          cases List.mem_cons.mp hy with
          | inl hy => subst hy; simp; omega
          | inr hy => exact hpos y (List.mem_cons_of_mem _ hy)
    case isFalse hd =>
      rw [bind_ok] at h
      obtain ⟨r', hr', h⟩ := h
      simp only [Except.ok.injEq] at h; subst h
      obtain ⟨ha, hp⟩ := nbSub_ok hr'
      constructor
      · intro d; have := ha d; rw [amountOf, amountOf]; omega
      · intro hpos y hy
        cases List.mem_cons.mp hy with
        | inl hy => subst hy; exact hpos _ (by simp)
        | inr hy => exact hp (fun z hz => hpos z (List.mem_cons_of_mem _ hz)) y hy

theorem nbIsEmpty_amountOf {cs : List Coin} (h : nbIsEmpty cs = true) (d : Denom) : amountOf d cs = 0 := by
  induction cs with
  | nil => rfl
  | cons c t ih =>
    simp only [nbIsEmpty, List.all_cons, Bool.and_eq_true, decide_eq_true_eq] at h
    rw [amountOf, ih h.2]
    simp [Coin.inDenom, h.1]

theorem nbIsEmpty_false_ne {cs : List Coin} (h : nbIsEmpty cs = false) : cs ≠ [] := by
  rintro rfl; simp [nbIsEmpty] at h

end Verif

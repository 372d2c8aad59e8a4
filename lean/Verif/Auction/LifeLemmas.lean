/- Lemmas for the life-cycle properties. Helper file, no properties. -/
import Verif.Auction.Funds

namespace Verif.Auction
open Verif Spec

variable {p : Params} {me : Addr}

theorem raised_eq (n i : Nat) : ceilDiv (n * (ONE + i)) ONE = raised n i := by
  unfold raised ceilDiv ONE; rfl

theorem raised_gt {n i d : Nat} (hd : 0 < d) (hn : 0 < n) (hi : 0 < i) : n < ceilDiv (n * (d + i)) d := by
  have h := ceilDiv_mul_ge (n * (d + i)) d hd
  apply Nat.lt_of_not_le
  intro hle
  have h2 : ceilDiv (n * (d + i)) d * d ≤ n * d := Nat.mul_le_mul_right d hle
  rw [Nat.mul_add] at h
  have h3 : 0 < n * i := Nat.mul_pos hn hi
  rw [Nat.mul_add] at h2
  omega

theorem validate_ok {c : Config} (h : c.validate = .ok ()) :
    0 < c.minBidIncrement ∧ c.minBidIncrement < ONE ∧ 0 < c.minDuration ∧ 0 < c.extendDuration := by
  unfold Config.validate at h
  simp only [bind_ok, ensure_ok] at h
  obtain ⟨_, h1, _, h2, _, h3, h4⟩ := h
  exact ⟨Nat.pos_of_ne_zero h1, h2, h3, h4⟩

theorem Spec.Reach.after {s s' : State} (h : Reach p me s) (ha : After p me s s') : Reach p me s' := by
  induction ha with
  | refl => exact h
  | step _ hs ih => exact ih.step hs

theorem Spec.Open.after {k : Key} {s s' : State} (h : Open p me k s s') : After p me s s' := by
  induction h with
  | refl => exact .refl _
  | step _ hs _ ih => exact .step ih hs

/-- Properties of an auction kept while it stays open. -/
theorem open_ind {R : Auction → Auction → Prop} {k : Key} (hrefl : ∀ a, R a a)
    (hstep : ∀ s a b c, WF p me s → Good p me k b → Good p me k c → Moved me s k b c → R a b → R a c)
    {s s' : State} (hr : Reach p me s) (ho : Open p me k s s') {a : Auction} (ha : s.auctions.get? k = some a) :
    ∃ a', s'.auctions.get? k = some a' ∧ R a a' := by
  induction ho with
  | refl => exact ⟨a, ha, hrefl a⟩
  | @step b c h hs hk ih =>
    obtain ⟨a1, h1, h2⟩ := ih
    cases hc : c.auctions.get? k with
    | none => exact absurd hc hk
    | some a2 =>
      have hrb := hr.after h.after
      have hw := hrb.wf
      have hw' := (hrb.step hs).wf
      exact ⟨a2, rfl, hstep _ _ _ _ hw (hw.auctions _ _ h1) (hw'.auctions _ _ hc) (step_moved hw hs h1 hc) h2⟩

/-! ### No panics -/

theorem u64_ne (n : Nat) : u64 n ≠ .error .panic := by unfold u64; split <;> simp
theorem u128_ne (n : Nat) : u128 n ≠ .error .panic := by unfold u128; split <;> simp
theorem subChk_ne (a b : Nat) : subChk a b ≠ .error .panic := by unfold subChk; split <;> simp
theorem orErr_ne {α : Type} {o : Option α} {e : Err} (h : o ≠ none ∨ e ≠ .panic) : orErr o e ≠ .error .panic := by
  cases o with
  | none => simp only [orErr]; intro h'; cases h'; rcases h with h | h <;> exact absurd rfl h
  | some a => simp [orErr]
theorem addrValidate_ne (a : Bytes) : addrValidate p a ≠ .error .panic := by unfold addrValidate; split <;> simp
theorem maybeAddr_ne (a : Option Bytes) : maybeAddr p a ≠ .error .panic := by
  unfold maybeAddr
  split
  · simp
  · exact bind_ne (addrValidate_ne _) (fun _ _ => by simp)
theorem nonpayable_ne (f : List Coin) : nonpayable f ≠ .error .panic := ensure_ne (by decide)
theorem mustPay_ne (f : List Coin) (d : Denom) : mustPay f d ≠ .error .panic := by
  unfold mustPay
  refine bind_ne ?_ (fun c _ => ?_)
  · unfold oneCoin
    split
    · split <;> simp
    · simp
  · split <;> simp
theorem validateReserve_ne (s : State) (c : Coin) : validateReserve s c ≠ .error .panic := by
  unfold validateReserve
  split
  · simp
  · exact ensure_ne (by decide)
theorem minBid_ne (a : Auction) (i : Nat) : a.minBid i ≠ .error .panic := by
  unfold Auction.minBid
  split
  · exact bind_ne (u128_ne _) (fun _ _ => mulCeil_ne _ _)
  · simp

theorem settle_ne {ctx : Ctx} {a : Auction} {c : Config} {ws : List HaltWindow} {ms : List Msg} {s : State} {k : Key}
    (hl : LibCalm p.lib) (hg : Good p me k a) : settleAuction p ctx a c ws ms s ≠ .error .panic := by
  unfold settleAuction
  split
  · simp
  case h_2 e he =>
    refine bind_ne (ensure_ne (by decide)) (fun _ _ => ?_)
    split
    · exact bind_ne (u64_ne _) (fun _ _ => by simp)
    · refine bind_ne (orErr_ne (Or.inl ?_)) (fun h _ => bind_ne (hl.royalties _ _) (fun roy _ =>
        bind_ne (hl.payout _ _ _ _ _) (fun _ _ => by simp)))
      intro hn
      rw [hg.high.mp hn] at he; cases he

theorem settleAll_ne {ctx : Ctx} {c : Config} {ws : List HaltWindow} (hl : LibCalm p.lib) : ∀ {as : List Auction} {ms : List Msg} {s : State},
    (∀ a ∈ as, Good p me a.key a) → settleAll p ctx c ws as ms s ≠ .error .panic
  | [], ms, s, _ => by simp [settleAll]
  | a :: as, ms, s, h => by
    unfold settleAll
    exact bind_ne (settle_ne hl (h a List.mem_cons_self)) (fun _ _ => settleAll_ne hl (fun a ha => h a (List.mem_cons_of_mem _ ha)))

theorem execute_ne {ctx : Ctx} {sender : Addr} {funds : List Coin} {m : Exec} {s : State} (hl : LibCalm p.lib) (hw : WF p me s) :
    execute p ctx sender funds m s ≠ .error .panic := by
  cases m with
  | create coll tok r dur rec =>
    refine bind_ne (addrValidate_ne _) (fun _ _ => bind_ne (maybeAddr_ne _) (fun _ _ => ?_))
    unfold executeCreate
    refine bind_ne (hl.owner _ _ _ _) (fun _ _ => bind_ne (hl.approval _ _ _) (fun _ _ => bind_ne (ensure_ne (by decide)) (fun _ _ =>
      bind_ne (hl.tradable _ _) (fun _ _ => bind_ne (validateReserve_ne _ _) (fun _ _ => bind_ne (ensure_ne (by decide)) (fun _ _ =>
      bind_ne ?_ (fun _ _ => by simp)))))))
    split
    · exact bind_ne (nonpayable_ne _) (fun _ _ => by simp)
    · exact bind_ne (ensure_ne (by decide)) (fun _ _ => by simp)
  | updateReserve coll tok r =>
    refine bind_ne (addrValidate_ne _) (fun _ _ => ?_)
    unfold executeUpdateReserve
    exact bind_ne (nonpayable_ne _) (fun _ _ => bind_ne (orErr_ne (Or.inr (by decide))) (fun _ _ => bind_ne (ensure_ne (by decide)) (fun _ _ =>
      bind_ne (ensure_ne (by decide)) (fun _ _ => bind_ne (validateReserve_ne _ _) (fun _ _ => by simp)))))
  | cancel coll tok =>
    refine bind_ne (addrValidate_ne _) (fun _ _ => ?_)
    unfold executeCancel
    exact bind_ne (nonpayable_ne _) (fun _ _ => bind_ne (orErr_ne (Or.inr (by decide))) (fun _ _ => bind_ne (ensure_ne (by decide)) (fun _ _ =>
      bind_ne (ensure_ne (by decide)) (fun _ _ => by simp))))
  | bid coll tok =>
    refine bind_ne (addrValidate_ne _) (fun _ _ => ?_)
    unfold executeBid
    refine bind_ne (orErr_ne (Or.inr (by decide))) (fun a ha => bind_ne (mustPay_ne _ _) (fun _ _ => bind_ne (ensure_ne (by decide)) (fun _ _ =>
      bind_ne (minBid_ne _ _) (fun _ _ => bind_ne (ensure_ne (by decide)) (fun _ _ => bind_ne (ensure_ne (by decide)) (fun _ _ =>
      bind_ne ?_ (fun _ _ => by simp)))))))
    rw [orErr_ok] at ha
    have hg := hw.auctions _ _ ha
    unfold bidTimes
    split
    · exact bind_ne (u64_ne _) (fun _ _ => by simp)
    case h_2 f hf =>
      have he : a.endTime ≠ none := by
        intro hn; rw [hg.first.mpr hn] at hf; cases hf
      refine bind_ne (orErr_ne (Or.inl (fun hn => he (hg.high.mp hn)))) (fun _ _ => bind_ne (ensure_ne (by decide)) (fun _ _ =>
        bind_ne (orErr_ne (Or.inl he)) (fun _ _ => bind_ne (subChk_ne _ _) (fun _ _ => bind_ne ?_ (fun _ _ => by simp)))))
      split
      · exact u64_ne _
      · simp
  | settle coll tok =>
    refine bind_ne (addrValidate_ne _) (fun _ _ => ?_)
    unfold executeSettle
    refine bind_ne (nonpayable_ne _) (fun _ _ => bind_ne (orErr_ne (Or.inr (by decide))) (fun a ha => ?_))
    rw [orErr_ok] at ha
    exact settle_ne hl (hw.auctions _ _ ha)

theorem setMinReserve_ne : ∀ {cs : List Coin} {m : AMap Denom Nat}, setMinReserve cs m ≠ .error .panic
  | [], m => by simp [setMinReserve]
  | c :: cs, m => by
    unfold setMinReserve
    exact bind_ne (ensure_ne (by decide)) (fun _ _ => setMinReserve_ne)

theorem unsetMinReserve_ne : ∀ {cs : List Denom} {m : AMap Denom Nat}, unsetMinReserve cs m ≠ .error .panic
  | [], m => by simp [unsetMinReserve]
  | c :: cs, m => by
    unfold unsetMinReserve
    exact bind_ne (ensure_ne (by decide)) (fun _ _ => unsetMinReserve_ne)

theorem sudo_ne {ctx : Ctx} {m : Sudo} {s : State} (hl : LibCalm p.lib) (hw : WF p me s) (ht : ctx.time ≤ U64MAX) :
    sudo p ctx m s ≠ .error .panic := by
  cases m with
  | beginBlock =>
    refine bind_ne (subChk_ne _ _) (fun _ _ => bind_ne ?_ (fun _ _ => by simp))
    split
    · exact bind_ne (u64_ne _) (fun _ _ => by simp)
    · simp
  | endBlock =>
    have hst := due_stored (ctx := ctx) hw
    refine bind_ne ?_ (fun _ _ => bind_ne (settleAll_ne hl (fun a ha => hw.auctions _ _ (hst.1 a ha))) (fun _ _ => by simp))
    split
    · simp
    case h_2 a ha =>
      obtain ⟨e, he, _⟩ := due_secs ht (List.mem_of_mem_head? ha)
      rw [he]
      simp [orErr, bind, Except.bind]
  | updateParams u =>
    refine bind_ne ?_ (fun _ _ => bind_ne ?_ (fun _ _ => by simp))
    · split
      · simp
      · exact addrValidate_ne _
    · unfold Config.validate
      exact bind_ne (ensure_ne (by decide)) (fun _ _ => bind_ne (ensure_ne (by decide)) (fun _ _ =>
        bind_ne (ensure_ne (by decide)) (fun _ _ => ensure_ne (by decide))))
  | setMinReserve cs => exact bind_ne setMinReserve_ne (fun _ _ => by simp)
  | unsetMinReserve ds => exact bind_ne unsetMinReserve_ne (fun _ _ => by simp)

end Verif.Auction

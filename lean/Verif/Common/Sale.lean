/-
packages/sg-marketplace-common/src/{sale,coin}.rs
-/
import Verif.Base.Chain

namespace Verif

/-- Labels used with `add_fee` (stargaze-marketplace-v2 helpers.rs 142-181) and for the seller. -/
inductive Label
  | protocol | maker | taker | royalty | seller
  deriving DecidableEq, Repr

/-- sale.rs 6-10 `Fee` -/
structure Fee where
  label : Label
  recipient : Addr
  share : Nat
  deriving DecidableEq, Repr

/-- sale.rs 12-17 `Payment` -/
structure Payment where
  label : Label
  recipient : Addr
  funds : Coin
  deriving DecidableEq, Repr

/-- sale.rs 48-62: the loop over fees. Returns the remaining seller amount and the payments.
`amount` is the sale amount, `left` the running `seller_amount`. -/
def feeLoop (denom : Denom) (amount : Nat) : Nat → List Fee → Res (Nat × List Payment)
  | left, [] => .ok (left, [])
  | left, f :: fs =>
    if f.share = 0 then feeLoop denom amount left fs
    else
      mulCeil amount f.share >>= fun feeAmount =>
      subChk left feeAmount >>= fun left' =>
      feeLoop denom amount left' fs >>= fun r =>
      .ok (r.1, ⟨f.label, f.recipient, ⟨denom, feeAmount⟩⟩ :: r.2)

/-- sale.rs 44-73 `NftSaleProcessor::build_payments` (returns the payments). -/
def buildPayments (sale : Coin) (seller : Addr) (fees : List Fee) : Res (List Payment) :=
  feeLoop sale.denom sale.amount sale.amount fees >>= fun r =>
  .ok (if r.1 = 0 then r.2 else r.2 ++ [⟨.seller, seller, ⟨sale.denom, r.1⟩⟩])

/-- sale.rs 75-77 `find_payment` -/
def findPayment (ps : List Payment) (l : Label) : Option Payment :=
  ps.find? (fun p => decide (p.label = l))

/-- sale.rs 79-85 `payout`: one bank send per payment, in order (coin.rs 11-16). -/
def payoutMsgs (ps : List Payment) : List Msg := ps.map (fun p => .send p.recipient [p.funds])

/-- coin.rs 6-8 `transfer_coin` -/
def transferCoin (c : Coin) (to : Addr) : Msg := .send to [c]

/-- coin.rs 11-16 `transfer_coins` -/
def transferCoins (cs : List Coin) (to : Addr) : Msg := .send to cs

/-- coin.rs 30-41 `checked_transfer_coins` -/
def checkedTransferCoins (cs : List Coin) (to : Addr) (resp : List Msg) : Res (List Msg) :=
  if cs.any (fun c => decide (c.amount = 0)) then .error .zeroSend
  else .ok (resp ++ [transferCoins cs to])

/-- coin.rs 20-26 `checked_transfer_coin` -/
def checkedTransferCoin (c : Coin) (to : Addr) (resp : List Msg) : Res (List Msg) :=
  checkedTransferCoins [c] to resp

end Verif

/-
packages/sg-marketplace-common/src/{nft,address,royalties}.rs
-/
import Verif.Base.Chain

namespace Verif

/-- nft.rs 12-28 `transfer_nft` -/
def transferNft (coll : Addr) (tok : Bytes) (to : Addr) : Msg := .nft coll tok to

/-- nft.rs 31-56 `only_owner`: note that a failing query passes. -/
def onlyOwner (ctx : Ctx) (sender : Addr) (coll : Addr) (tok : Bytes) : Res Unit :=
  match ctx.q.ownerOf coll tok with
  | some o => if o = sender then .ok () else .error .unauthorized
  | none => .ok ()

/-- nft.rs 59-82 `only_tradable`: failing query or no start time passes. -/
def onlyTradable (ctx : Ctx) (coll : Addr) : Res Unit :=
  match ctx.q.collInfo coll with
  | some info =>
    match info.start with
    | some start => if ctx.time < start then .error .notTradable else .ok ()
    | none => .ok ()
  | none => .ok ()

/-- address.rs 15-17 `address_or` -/
def addressOr (a : Option Addr) (dflt : Addr) : Addr := a.getD dflt

/-- `Vec::dedup`: drop elements equal to their predecessor. -/
def dedupAdj : List Bytes → List Bytes
  | [] => []
  | [a] => [a]
  | a :: b :: t => if a = b then dedupAdj (b :: t) else a :: dedupAdj (b :: t)

/-- address.rs 4-12 `map_validate` -/
def mapValidate (valid : Bytes → Bool) (xs : List Bytes) : Res (List Addr) :=
  if xs.all valid then .ok (dedupAdj (sortBy bLe xs)) else .error .std

/-- royalties.rs 12-35 `fetch_royalty_entry` (the query is for this contract as protocol). -/
def fetchRoyaltyEntry (ctx : Ctx) (registry coll : Addr) : Res (Option Royalty) :=
  match ctx.q.registry registry coll with
  | none => .error .std
  | some (some protocol, _) => .ok (some protocol)
  | some (none, some dflt) => .ok (some dflt)
  | some (none, none) => .ok none

/-- royalties.rs 37-81 `fetch_or_set_royalties`: returns the entry and messages to add. -/
def fetchOrSetRoyalties (ctx : Ctx) (valid : Bytes → Bool) (registry coll : Addr) :
    Res (Option Royalty × List Msg) :=
  fetchRoyaltyEntry ctx registry coll >>= fun e =>
  match e with
  | some r => .ok (some r, [])
  | none =>
    match ctx.q.collInfo coll with
    | some info =>
      match info.royalty with
      | none => .ok (none, [])
      | some r => if valid r.recipient then .ok (some r, [.initRoyalty registry coll]) else .error .std
    | none => .ok (none, [])

end Verif

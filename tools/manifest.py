#!/usr/bin/env python3
"""Writes MANIFEST.json. Theorems are found by name (Cnn_...) in the Props files; notes are kept here."""
import glob, json, os, re

ROOT = os.path.join(os.path.dirname(os.path.abspath(__file__)), "..")
VIOLATED = "VIOLATED by the code: negation proved (_violated), the part that holds is in the _partial theorem. "
NOTES = {
    "C148": VIOLATED + "Tokens owned by a contract without a listing or auction stay there for ever (C148_stray).",
    "C149": VIOLATED + "The account's surplus over what is owed never shrinks (C149_surplus).",
    "C150": VIOLATED + "The fees at the time of the sale count (C150_partial: settings unchanged; C150_partial_now: current settings).",
    "C151": VIOLATED + "Orders in the former denom can be accepted by name; matched trades are in the current denom.",
    "C152": VIOLATED + "v1 and reserve auction: addresses in some offsets are not validated. Holds in v2 (C152_answered_iff).",
    "C154": VIOLATED + "v1 listings by expiry start over if the last bid shown is gone. Holds in full in v2 and for the auctions of a seller.",
    "C157": VIOLATED + "A listing is good again when the token returns to its seller. Holds if no listing by the account was left (C157_partial_fresh).",
    "C158": VIOLATED + "Bids for a token with an expired listing are refused. Holds for all other calls (C158_partial_others).",
    "C159": VIOLATED + "Increment and extension are those at the time of the bid. Holds for first bids and with unchanged settings.",
    "C166": VIOLATED + "The trading fee is read at settlement. Holds while trading fee and fair-burn address stay the same; winner and total are always the same.",
    "C165": VIOLATED + "`SetBid` sent again leaves a bid on the token that the caller has just bought. Holds for `AcceptAsk`, `BuySpecificNft` (v2), `BuyNow` and `BuyFor` (v1).",
    "C163": VIOLATED + "A bid accepted for a listed token uses recipient and finder of the listing. Holds for all other calls.",
    "C05": VIOLATED + "AcceptBid and AcceptCollectionBid keep coins attached to the call.",
    "C21": VIOLATED + "AcceptAsk, AcceptBid, AcceptCollectionBid and the Update calls do not check the trading time.",
    "C26": VIOLATED + "An OwnerOf query error passes the check. For conforming collections such a transaction cannot complete.",
    "C62": VIOLATED + "If OwnerOf fails for a listed token, a third party's SellNft deletes the listing.",
    "C38": VIOLATED + "Auctions are selected by whole seconds but settled by nanoseconds.",
    "C39": VIOLATED + "The window is dropped by the first end-block call that finds no due auction.",
    "C40": VIOLATED + "The first failing settlement aborts the batch (C40_blocked states this in general).",
    "C42": VIOLATED + "Funds above the creation fee are kept.",
    "C46": VIOLATED + "Royalty and remainder are rounded down separately; one unit can stay in the contract.",
    "C52": VIOLATED + "UpdateAskPrice does not check the maximum.",
    "C57": VIOLATED + "An ask on token 0 is never listed.",
    "C58": VIOLATED + "Without start_before nothing is returned.",
    "C67": VIOLATED + "Every page after the first is empty.",
    "C68": VIOLATED + "A collection is listed once per ask.",
    "C70": VIOLATED + "A missing offset bid restarts the listing.",
    "C84": VIOLATED + "With a fixed end_time the second page repeats the first; advancing end_time to that of the last auction pages correctly.",
    "C95": VIOLATED + "With less than the price, or on an auction listing, a bid is stored instead.",
    "C129": VIOLATED + "UpdateAskPrice asks for the owner of the token, not for the seller: a later owner can reprice a listing, which counts again when the token is back with the seller.",
    "C132": VIOLATED + "one_coin rejects a call without coins, so a fee of zero (or no fee, as after deployment) makes listing impossible.",
    "C133": VIOLATED + "Ties are broken by order id, a hash: largest id among bids, smallest among asks.",
    "C130": VIOLATED + "AcceptBid names no price: the bidder can replace the bid by a lower one first.",
    "C138": VIOLATED + "Ids of bids come from a counter shared by all collections: a bid on another collection that is executed first changes the id. Replies are the same in either order (C138_partial_reply), and so is the result unless both calls take a number (C138_partial).",
    "C141": VIOLATED + "Each fee is rounded up for itself: with fees of 2 % and 5 % a bid of 101 leaves the seller 92, a bid of 100 leaves 93. The price is no lower, the proceeds fall by at most 3 (C141_partial).",
    "C142": VIOLATED + "A listing at a price that does not cover the rounded fees is matched first and cannot be settled: all calls for any token of the collection fail until it is withdrawn (C142_partial_blocked). If all listings within the limit can be settled the property holds (C142_partial, C142_partial_price).",
    "C144": VIOLATED + "A seller who names a payee that the bank refuses makes settlement impossible (C144_stuck: whatever happens, the auction stays; C144_hook: the hook fails). C144_partial: otherwise anybody can settle.",
    "C146": VIOLATED + "The cheapest listing is matched; if its recipient (C146_recipient) or finder (C146_finder) is refused, all calls for any token of the collection at or above its price fail (C146_jam).",
    "C147": VIOLATED + "The best bid is matched; if its finder is refused (C147_finder), all listings at or below its price fail (C147_jam). Listing above all bids works (C147_partial).",
    "C97": VIOLATED + "The operators field of UpdateParams is ignored.",
    "C98": VIOLATED + "Amounts that round to zero are sent and refused by the bank; C98_partial* say when calls complete.",
    "C111": VIOLATED + "A purchase emits set-bid although no bid is stored; an observer that reads response by response stays right.",
    "C117": VIOLATED + "migrate of v2 and of the auction check neither the contract name nor the version.",
    "C66": VIOLATED + "The limit is truncated to 32 bits.",
}

def theorems():
    out = {}
    for f in sorted(glob.glob(os.path.join(ROOT, "lean/Verif/**/Props*.lean"), recursive=True)):
        ns = []
        for line in open(f):
            m = re.match(r"namespace (\S+)", line)
            if m: ns.append(m.group(1))
            m = re.match(r"end (\S+)", line)
            if m and ns and ns[-1] == m.group(1): ns.pop()
            m = re.match(r"theorem ((C\d+)_\w+)", line)
            if m:
                out.setdefault(m.group(2), []).append(".".join(ns + [m.group(1)]))
    return out

def main():
    th = theorems()
    ids = [json.loads(l)["id"] for l in open(os.path.join(ROOT, "properties.jsonl"))]
    claims = []
    for i in ids:
        if i not in th: continue
        status = "partial" if any("_violated" in t or "_partial" in t for t in th[i]) else "proved"
        claims.append({"property": i, "status": status, "theorems": th[i], "note": NOTES.get(i, "")})
    json.dump({"claims": claims}, open(os.path.join(ROOT, "MANIFEST.json"), "w"), indent=1, ensure_ascii=False)
    print(len(claims), "claims;", "missing:", [i for i in ids if i not in th])

main()

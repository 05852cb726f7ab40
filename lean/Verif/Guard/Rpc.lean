/-
The calls of the serviceguard client: walletrpc (serviceguard/client/walletrpc/client.go),
keylookup (serviceguard/client/keylookup/impl.go), guardrpc (serviceguard/client/guardrpc/client.go),
and `getTokenFromWallet` (serviceguard/client/walletserver.go).

`JSONRPCRequest` (util/jsonclient/jsonclient.go:53-86) is what a server answers: a JSON object or an
error text; every theorem holds for all answers unless it says otherwise. An error of the client
factory is an error text as well. Errors are modelled by their texts.
-/
import Verif.Guard.ClientProps
import Verif.Json

namespace Verif.Guard.Rpc
open Verif.Util (hex)
open Verif.Mix (unhex fix32 Ans isReplay replayPrefix)
open Verif.Guard.Client

/-- A string as bytes. -/
def txt (s : String) : Bytes := s.toList.map fun c => UInt8.ofNat c.toNat

/-! ### answers -/

/-- A JSON value in a `map[string]interface{}`; a number is taken as an integer. -/
inductive V where
  | str (s : Bytes)
  | num (n : Int)
  | bool (b : Bool)
  | other
  deriving DecidableEq, Repr

/-- The decoded result; of two equal keys the first counts. -/
abbrev Reply := List (Bytes × V)

/-- `data[key]`: `none` if there is no such key. -/
def get (r : Reply) (key : String) : Option V := (r.find? fun x => x.1 == txt key).map (·.2)

/-- What `JSONRPCRequest` returns. -/
inductive Answer where
  | data (r : Reply)
  | err (e : Bytes)
  deriving DecidableEq, Repr

/-- `data[key].(string)` without a check: panics if it is no string, or missing. -/
def mustStr : Option V → Res Bytes Bytes
  | some (.str s) => .ok s
  | _ => .panic

/-- `data[key].(bool)` without a check. -/
def mustBool : Option V → Res Bytes Bool
  | some (.bool b) => .ok b
  | _ => .panic

/-- An error instead of a missing value. -/
def orErr {α : Type} (e : Bytes) : Option α → Res Bytes α
  | some a => .ok a
  | none => .err e

/-- The texts of the packages' `ErrParams`. -/
def errParams : Bytes := txt "walletrpc: bad RPC parameters"
/-- See `errParams`. -/
def errLookupParams : Bytes := txt "keylookup: bad RPC parameters"
/-- See `errParams`. -/
def errGuardParams : Bytes := txt "guardrpc: bad RPC parameters"
/-- Error of base64 or hex decoding. -/
def errDecode : Bytes := txt "illegal encoded data"
def errBadSigner : Bytes := txt "keylookup: bad signer"
def errBadSignature : Bytes := txt "keylookup: bad signature"

/-! ### walletrpc/client.go -/

/-- A string field that is checked (client.go:149-160). -/
def checkedStr (r : Reply) (key : String) : Res Bytes Bytes :=
  match get r key with
  | some (.str s) => .ok s
  | _ => .err errParams

/-- `data[key].(float64)` with its checks (client.go:88-112); before the conversion to uint64. -/
def checkedNum (r : Reply) (key : String) : Res Bytes Int :=
  match get r key with
  | some (.num n) => .ok n
  | _ => .err errParams

/-- The fields of the answer of getToken (client.go:149-175). -/
def tokenFields (r : Reply) : Res Bytes (Bytes × Bytes × Bytes) :=
  (checkedStr r "Token").bind fun t =>
  (checkedStr r "Params").bind fun p =>
  (orErr errParams (Base64.decode t)).bind fun t =>
  (orErr errParams (Base64.decode p)).bind fun p =>
  (mustStr (get r "PubKeyUsed")).bind fun k =>
  (orErr errParams (Base64.decode k)).bind fun k =>
  .ok (t, p, k)

/-- The fields of the answer of getBalance (client.go:88-114). -/
def balanceFields (r : Reply) : Res Bytes (Int × Int × Int) :=
  (checkedNum r "SubscriptionTokens").bind fun a =>
  (checkedNum r "PrepayTokens").bind fun b =>
  (checkedNum r "LastSubscribeLoad").bind fun c =>
  .ok (a, b, c)

/-- The end of `getToken` and `getBalance`: the fields, or the error after `IsReplay`
(client.go:84-87, 145-148). -/
def answered {α : Type} (fields : Reply → Res Bytes α) : Answer → Res Unit (Ans α)
  | .err e => match isReplay e with
    | .ok (.replay l) => .ok (.replay l)
    | .ok _ => .ok (.err e)
    | .err _ => .panic
    | .panic => .panic
  | .data r => match fields r with
    | .ok a => .ok (.ok a)
    | .err e => .ok (.err e)
    | .panic => .panic

/-- `WalletClient` (client.go:30-37): what changes. -/
structure WC where
  lastCounter : UInt64
  lastToken : Option Bytes
  deriving DecidableEq, Repr

/-- A server with the requests it got so far, and the number of authentication tokens made. -/
structure World (σ : Type) where
  srv : σ
  sent : List Bytes
  made : Nat

section
variable {σ α : Type} (srv : σ → Bytes → σ × Answer) (mk : Nat → UInt64 → Bytes) (fields : Reply → Res Bytes α)

/-- One request. -/
def request (w : World σ) (t : Bytes) : World σ × Res Unit (Ans α) :=
  ({ w with srv := (srv w.srv t).1, sent := w.sent ++ [t] }, answered fields (srv w.srv t).2)

/-- The token of the next request (client.go:56-59, 122-125): the last one if it is kept, otherwise
a new one. `mk n c` is the n-th new token with counter `c`, `CreateToken`. -/
def nextToken (w : World σ) (c : WC) (last : UInt64) : World σ × Bytes :=
  match c.lastToken with
  | some t => (w, t)
  | none => ({ w with made := w.made + 1 }, mk w.made (last + 1))

/-- The `CallLoop` (client.go:54-70, 120-136) with `i` repetitions left. -/
def callLoop : Nat → World σ → WC → UInt64 → World σ × WC × Res Unit (Ans α)
  | i, w, c, last =>
    let (w1, t) := nextToken mk w c last
    match request srv fields w1 t with
    | (w2, .ok (.replay l)) =>
      match i with
      | 0 => (w2, { lastCounter := l, lastToken := some t }, .ok (.replay l))
      | i + 1 => callLoop i w2 { c with lastCounter := l } l
    | (w2, .ok (.err e)) => (w2, { c with lastToken := some t }, .ok (.err e))
    | (w2, r) => (w2, c, r)

/-- `GetToken` and `GetBalance` (client.go:50-71, 117-137). -/
def walletCall (w : World σ) (c : WC) : World σ × WC × Res Unit (Ans α) := callLoop srv mk fields 3 w c c.lastCounter
end

/-! ### client/errors.go, client/walletserver.go -/

/-- The error texts registered as fatal (errors.go:90-139). -/
def fatalTexts : List Bytes :=
  [txt "walletserver: no such user", txt "walletserver: bad token", txt "walletserver: insufficient funds",
    txt "keylookup: key not found", txt "issuer: parameter and Token usage mismatch", txt "issuer: parameters have expired",
    txt "issuer: wrong calltype", txt "issuer: token double spend", txt "issuer: parameter double spend",
    txt "issuer: bad package", txt "issuer: owner signature verification failed", txt "issuer: wrong issuer",
    txt "issuer: token expired", txt "issuer: bad usage", txt "issuer: bad issuer",
    txt "issuer: bad signature in token", txt "issuer: parameters were mixed"]

/-- `lookupError` (errors.go:33-42): whether the error is fatal. -/
def isFatal (e : Bytes) : Bool := fatalTexts.contains e

/-- The text of `ErrReplay` (walletauth.go:26). -/
def errReplay : Bytes := txt "walletauth: replay on authentication"

/-- AuthTokenRetry (common/constants/constants.go). -/
def authTokenRetry : Int := 3

/-- The wallet part of the client: `walletRPC`, and the cache of the wallet store. -/
structure Wallet where
  online : Bool
  rpc : Option WC
  cache : CacheStore
  deriving DecidableEq, Repr

section
variable {σ α : Type} (srv : σ → Bytes → σ × Answer) (mk : Nat → UInt64 → Bytes) (fields : Reply → Res Bytes α)

/-- The cached authentication token and the number of tries (walletserver.go:96-101). -/
def cachedToken (c : CacheStore) : Option Bytes × Int :=
  let (t, n) := c.getAuthToken.2
  if n > authTokenRetry then (none, 0) else (t, n)

/-- `getTokenFromWallet` (walletserver.go:84-122). The write of the cache succeeds. -/
def fromWallet (w : World σ) (c : Wallet) : World σ × Wallet × Res E α :=
  if c.online then
    let rpc := c.rpc.getD ⟨0, none⟩
    let k := c.cache.getAuthToken.1
    let (t, tries) := cachedToken c.cache
    match walletCall srv mk fields w { rpc with lastToken := t } with
    | (w', rpc', .ok (.ok a)) => (w', { c with rpc := some rpc', cache := k.setAuthToken none 0 }, .ok a)
    | (w', rpc', .ok (.replay _)) =>
      (w', { c with rpc := some rpc', cache := k.setAuthToken rpc'.lastToken (tries + 1) }, .err .retry)
    | (w', rpc', .ok (.err e)) =>
      if isFatal e then (w', { c with rpc := some rpc', cache := k }, .err .final)
      else (w', { c with rpc := some rpc', cache := k.setAuthToken rpc'.lastToken (tries + 1) }, .err .retry)
    | (w', rpc', _) => (w', { c with rpc := some rpc', cache := k }, .panic)
  else (w, c, .err .offline)

/-- `n` calls, one after the other; the results. -/
def calls : Nat → World σ → Wallet → World σ × Wallet × List (Res E α)
  | 0, w, c => (w, c, [])
  | n + 1, w, c =>
    let (w1, c1, r) := fromWallet srv mk fields w c
    let (w2, c2, rs) := calls n w1 c1
    (w2, c2, r :: rs)
end

/-! ### keylookup/impl.go -/

/-- `getKey` (impl.go:67-86). -/
def getKey : Answer → Res Bytes Bytes
  | .err e => .err e
  | .data r => match get r "Key" with
    | none => .err errLookupParams
    | some v => (mustStr (some v)).bind fun s => orErr errDecode (Base64.decode s)

/-- `strings.Split(s, ", ")`. -/
def splitComma : Bytes → List Bytes
  | [] => [[]]
  | c :: r =>
    if c = 44 ∧ r.head? = some 32 then [] :: splitComma r.tail
    else match splitComma r with
      | [] => [[c]]
      | x :: xs => (c :: x) :: xs
termination_by s => s.length
decreasing_by
  all_goals simp only [List.length_cons, List.length_tail]
  all_goals omega

/-- The keys of the list (impl.go:147-157): each is copied to 32 bytes. -/
def keysOf (list : Bytes) : Option (List Bytes) := (splitComma list).mapM fun s => (unhex s).map fix32

/-- `GetVerifyList` (impl.go:109-159) of a client with trust root `root`. -/
def getVerifyList (P : Prims) (root : Bytes) : Answer → Res Bytes (List Bytes)
  | .err e => .err e
  | .data r =>
    if (get r "PublicKey").isNone || (get r "Signature").isNone || (get r "KeyList").isNone then .err errLookupParams
    else
      (mustStr (get r "PublicKey")).bind fun p =>
      (orErr errLookupParams (unhex p)).bind fun p =>
      if fix32 p ≠ root then .err errBadSigner
      else
        (mustStr (get r "Signature")).bind fun s =>
        (orErr errLookupParams (unhex s)).bind fun s =>
        (mustStr (get r "KeyList")).bind fun l =>
        if P.verify root l s then orErr errDecode (keysOf l) else .err errBadSignature

/-- What `Client.GetVerifyKeys` (clientlib.go:125-150) gets from the service: the list, or nothing
on an error. -/
def lookupService (P : Prims) (root : Bytes) (a : Answer) : Option (List Bytes) :=
  match getVerifyList P root a with
  | .ok l => some l
  | _ => none

/-! ### guardrpc/client.go -/

/-- `GetParams` and `GetParamsInternal` (client.go:67-86, 89-109). -/
def getParams : Answer → Res Bytes Bytes
  | .err e => .err e
  | .data r => match get r "Packet" with
    | none => .err errGuardParams
    | some v => (mustStr (some v)).bind fun s => orErr errDecode (Base64.decode s)

/-- `Spend` (client.go:112-129). -/
def spend : Answer → Res Bytes Bool
  | .err e => .err e
  | .data r => match get r "Status" with
    | none => .err errGuardParams
    | some v => mustBool (some v)

/-- `Reissue` and `Issue` (client.go:132-159, 162-195). -/
def reissue : Answer → Res Bytes (Bytes × Bytes)
  | .err e => .err e
  | .data r =>
    if (get r "Packet").isNone || (get r "PubkeyUsed").isNone then .err errGuardParams
    else
      (mustStr (get r "Packet")).bind fun p =>
      (orErr errDecode (Base64.decode p)).bind fun p =>
      (mustStr (get r "PubkeyUsed")).bind fun k =>
      (orErr errDecode (Base64.decode k)).bind fun k =>
      .ok (p, k)

/-- Host and path of `pubKeyToURL` (client.go:51-63) for a template with host `host` and path
`path`. -/
def keyURL (host path pub : Bytes) (internal : Bool) : Bytes × Bytes :=
  ((hex pub).take 48 ++ (if internal then txt "int" else []) ++ host,
    path ++ (if internal then txt "int/" else []) ++ hex pub)

end Verif.Guard.Rpc

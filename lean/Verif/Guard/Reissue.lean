/-
`ReissueToken` (serviceguard/client/reissue.go): C37, C38, C82.

A run is given with the list of the worlds after each of its effects: a crash leaves one of
them. A world is the wallet database, the packets sent to the issuer, and those the issuer
accepted, each of which spends the token in it. The answers of the servers, the key pool, the generated keys and blind
signatures are parameters. Writes of keys to the key store are not modelled.
-/
import Verif.Guard.Locks

namespace Verif.Guard.Reissue
open Verif.Util
open Verif.Guard.Store

/-- The wallet database, the packets sent to the issuer, and those it accepted. -/
structure World where
  db : Db
  asked : List Bytes
  spent : List Bytes

/-- The errors of `ReissueToken` (errors.go:50-58). -/
inductive E where
  | offline
  | retry
  | fatal
  | final
  deriving DecidableEq, Repr

/-- The answer of a server: a result, or an error that is registered as fatal or not
(errors.go:33-42). -/
inductive Rpc (α : Type) where
  | ok (a : α)
  | fail (fatal : Bool)

/-- What the run depends on besides the wallet. -/
structure Env where
  online : Bool
  lockID : Int
  now : Int
  /-- `guardrpc.New` -/
  client : Bool
  /-- `Keypool.Lookup` of the key of the old token: its signer -/
  signer : Bytes → Option Bytes
  /-- `issueClient.GetParams` -/
  params : Rpc Bytes
  /-- `ed25519.GenerateKey` -/
  genKey : Option (Bytes × Bytes)
  /-- `packetClient.Reissue` and `blindingFactors.Marshal`: token, old owner, new owner, parameters -/
  blind : Bytes → Bytes → Option Bytes → Option Bytes → Option (Bytes × Bytes)
  /-- `issueClient.Reissue` -/
  reissue : Bytes → Rpc (Bytes × Bytes)
  /-- `PublicKey.Unmarshal` and `Keypool.LoadKey` of the new key -/
  loadKey : Bytes → Bool
  /-- `ReissuePacketPrivate.Unmarshal` and `packetClient.Unblind` -/
  unblind : Option Bytes → Bytes → Option Bytes
  /-- `Keypool.Lookup` of the key of the new token: usage and expiry -/
  newKey : Bytes → Option (Bytes × Int)

/-- Programs with their intermediate worlds. -/
def M (α : Type) := World → List World × World × Res E α

def M.pure {α : Type} (a : α) : M α := fun w => ([], w, .ok a)
def M.fail {α : Type} (e : E) : M α := fun w => ([], w, .err e)
def M.panic {α : Type} : M α := fun w => ([], w, .panic)
def M.get : M World := fun w => ([], w, .ok w)
/-- One effect. -/
def M.step (f : World → World) : M Unit := fun w => ([f w], f w, .ok ())

def M.bind {α β : Type} (m : M α) (f : α → M β) : M β := fun w =>
  match m w with
  | (t, w', .ok a) => (t ++ (f a w').1, (f a w').2.1, (f a w').2.2)
  | (t, w', .err e) => (t, w', .err e)
  | (t, w', .panic) => (t, w', .panic)

instance : Monad M where
  pure := M.pure
  bind := M.bind

/-- `none` is an error. -/
def M.need {α : Type} (e : E) : Option α → M α
  | some a => M.pure a
  | none => M.fail e

/-- A fatal error of a server is final, others are to be retried (reissue.go:66-73, 118-126). -/
def M.rpc {α : Type} : Rpc α → M α
  | .ok a => M.pure a
  | .fail fatal => M.fail (if fatal then .final else .retry)

/-- `walletStore.SetToken`: two statements. -/
def setToken (e : Entry) : M Unit :=
  match encodeToken e with
  | .ok (g, s) => do
    M.step fun w => { w with db := w.db.setRow g }
    if s.length > 0 then M.step fun w => { w with db := w.db.setState g.hash s } else M.pure ()
  | _ => M.panic

/-- `walletStore.DelToken`: two statements; the state does not matter once the row is gone, so
they are taken together. -/
def delToken (hash : Bytes) : M Unit := M.step fun w => { w with db := w.db.delToken hash }

/-- The parameters (reissue.go:62-81). -/
def withParams (env : Env) (e : Entry) : M Entry :=
  match e.params with
  | some _ => M.pure e
  | none => do
    let p ← M.rpc env.params
    setToken { e with params := some p }
    M.pure { e with params := some p }

/-- The new owner (reissue.go:82-92). Without a named owner, the generated key is copied to
the array of a nil pointer, which panics. -/
def withOwner (env : Env) (owner : Option Bytes) (e : Entry) : M Entry :=
  match owner with
  | some o => M.pure { e with newOwnerPub := some o }
  | none => match env.genKey with
    | none => M.fail .fatal
    | some _ => M.panic

/-- Parameters, new owner and packet (reissue.go:62-114). -/
def prepare (env : Env) (owner : Option Bytes) (e : Entry) (priv : Bytes) : M Entry := do
  let e ← withParams env e
  let e ← withOwner env owner e
  let r ← M.need .fatal (env.blind e.token priv e.newOwnerPub e.params)
  setToken { e with blinding := some r.2, serverPacket := some r.1 }
  M.pure { e with blinding := some r.2, serverPacket := some r.1 }

/-- The entry of the new token (reissue.go:162-172). -/
def newEntry (P : Prims) (e : Entry) (t : Token) (newToken usage : Bytes) (expire : Int) : Entry :=
  ⟨t.hash P, newToken, none, e.newOwnerPub, e.newOwnerPriv, e.renewable, e.renewable, usage, expire, none, none, none, none⟩

/-- The call and what follows (reissue.go:116-178). -/
def finish (P : Prims) (env : Env) (e : Entry) (packet : Bytes) : M Bytes := do
  M.step fun w => { w with asked := packet :: w.asked }
  let (reply, pubkey) ← M.rpc (env.reissue packet)
  M.step fun w => { w with spent := packet :: w.spent }
  delToken e.hash
  if env.loadKey pubkey then
    let newToken ← M.need .fatal (env.unblind e.blinding reply)
    let t ← M.need .fatal (Token.unmarshal newToken)
    let (usage, expire) ← M.need .fatal (env.newKey t.properties.1)
    setToken (newEntry P e t newToken usage expire)
    M.pure (t.hash P)
  else M.fail .fatal

/-- From the lookup of the entry to the call (reissue.go:34-116). -/
def body (P : Prims) (env : Env) (hash : Bytes) (owner : Option Bytes) (lockID : Int) : M Bytes := do
  if env.client then
    let w ← M.get
    match w.db.getToken hash lockID with
    | .err .locked => M.fail .retry
    | .err _ => M.fail .fatal
    | .panic => M.panic
    | .ok e =>
      match e.ownerPriv with
      | none => M.fail .fatal
      | some priv =>
        let t ← M.need .fatal (Token.unmarshal e.token)
        let _ ← M.need .fatal (env.signer t.properties.1)
        match e.serverPacket with
        | some packet => finish P env e packet
        | none => do
          let e ← prepare env owner e priv
          finish P env e (e.serverPacket.getD [])
  else M.fail .retry

/-- `defer c.UnlockToken(tokenHash)`: also runs after a panic. -/
def deferUnlock {α : Type} (hash : Bytes) (m : M α) : M α := fun w =>
  let r := m w
  let w' := { r.2.1 with db := r.2.1.db.unlock hash }
  (r.1 ++ [w'], w', r.2.2)

/-- `ReissueToken` (reissue.go:19-179). -/
def reissueToken (P : Prims) (env : Env) (hash : Bytes) (owner : Option Bytes) : M Bytes := do
  if env.online then
    let w ← M.get
    let lockID := (w.db.lock hash env.lockID env.now).2
    M.step fun w => { w with db := (w.db.lock hash env.lockID env.now).1 }
    if lockID = 0 then M.fail .retry
    else deferUnlock hash (body P env hash owner lockID)
  else M.fail .offline

/-- The worlds a crash can leave, beginning with the first. -/
def crashes {α : Type} (m : M α) (w : World) : List World := w :: (m w).1

end Verif.Guard.Reissue

import Verif.Msg.Base
/-
Model of msg/session/memstore/memstore.go.  Go maps are functions to `Option`.
-/
namespace Verif.Msg

/-- Point update of a Go map. -/
def upd {α : Type} (f : Str → Option α) (k : Str) (v : Option α) : Str → Option α :=
  fun x => if x = k then v else f x

/-- memstore.go:15-20, `memSession`; the empty string marks a deleted key. -/
structure Sess where
  root : Str
  chain : Str
  send : List Str
  recv : List Str
  deriving DecidableEq, Repr

/-- memstore.go:29-36, `MemStore`; `out` collects what was written to
args.Writer.  The cleanup times of session keys are not modelled.  `nyms` are the
nym addresses `GetPublicKeyEntry` returns: those of a new memory store are constant
(memstore.go:130), those of the key database come from the published KeyInits. -/
structure MemStore where
  privs : Str → Option KeyEntry
  pubs : Str → Option KeyEntry
  nyms : Str → Str
  states : Str → Option State
  sessions : Str → Option Sess
  skeys : Str → Option (KeyEntry × Str)
  out : Bytes

/-- The bytes of "undefined" (memstore.go:130). -/
def MemStore.sUndefined : Str := [117, 110, 100, 101, 102, 105, 110, 101, 100]

/-- memstore.go:39-47, `New`; for `nyms` see memstore.go:125-131. -/
def MemStore.new : MemStore :=
  { privs := fun _ => none, pubs := fun _ => none, nyms := fun _ => sUndefined, states := fun _ => none,
    sessions := fun _ => none, skeys := fun _ => none, out := [] }

namespace MemStore

/-- Assignment `ms.sessions[k] = s`. -/
def setSess (ms : MemStore) (k : Str) (s : Sess) : MemStore :=
  { ms with sessions := upd ms.sessions k (some s) }

/-- memstore.go:82-107, `StoreSession`. -/
def storeSession (ms : MemStore) (k root chain : Str) (send recv : List Str) :
    Except SErr Unit × MemStore :=
  if send.length ≠ recv.length then (.error .lengths, ms) else
  match ms.sessions k with
  | none =>
    let s' : Sess := { root := root, chain := chain, send := send, recv := recv }
    (.ok (), ms.setSess k s')
  | some s =>
    let s' : Sess := { s with chain := chain, send := s.send ++ send, recv := s.recv ++ recv }
    (.ok (), ms.setSess k s')

/-- memstore.go:110-113, `HasSession`. -/
def hasSession (ms : MemStore) (k : Str) : Bool := (ms.sessions k).isSome

/-- memstore.go:134-140, `NumMessageKeys`. -/
def numMessageKeys (ms : MemStore) (k : Str) : Except SErr UInt64 :=
  match ms.sessions k with
  | none => .error .noSession
  | some s => .ok (UInt64.ofNat s.send.length)

/-- memstore.go:143-182, `GetMessageKey`. The index check is on `send` only; a
too short `recv` (a panic in Go, reported as `other` here) is excluded by
`storeSession`. -/
def getMessageKey (P : Prims) (ms : MemStore) (k : Str) (sender : Bool) (i : UInt64) :
    Except SErr Bytes :=
  match ms.sessions k with
  | none => .error .noSession
  | some s =>
    if s.send.length ≤ i.toNat then .error .outOfBounds else
    match (if sender then s.send else s.recv)[i.toNat]? with
    | none => .error .other
    | some key =>
      if key = [] then .error .keyUsed else
      match P.unb64 key with
      | none => .error .cannotDecode
      | some b => if b.length < 64 then .error .wrongLength else .ok (b.take 64)

/-- memstore.go:185-200, `GetRootKeyHash`. -/
def getRootKeyHash (P : Prims) (ms : MemStore) (k : Str) : Except SErr Bytes :=
  match ms.sessions k with
  | none => .error .noSession
  | some s =>
    match P.unb64 s.root with
    | none => .error .cannotDecode
    | some b => if b.length < 64 then .error .wrongLength else .ok (b.take 64)

/-- memstore.go:203-218, `GetChainKey`. -/
def getChainKey (P : Prims) (ms : MemStore) (k : Str) : Except SErr Bytes :=
  match ms.sessions k with
  | none => .error .noSession
  | some s =>
    match P.unb64 s.chain with
    | none => .error .cannotDecode
    | some b => if b.length < 32 then .error .wrongLength else .ok (b.take 32)

/-- memstore.go:221-240, `DelMessageKey`. -/
def delMessageKey (ms : MemStore) (k : Str) (sender : Bool) (i : UInt64) :
    Except SErr Unit × MemStore :=
  match ms.sessions k with
  | none => (.error .noSession, ms)
  | some s =>
    if s.send.length ≤ i.toNat then (.error .outOfBounds, ms) else
    let s' : Sess :=
      if sender then { s with send := s.send.set i.toNat [] }
      else { s with recv := s.recv.set i.toNat [] }
    (.ok (), ms.setSess k s')

/-- memstore.go:116-122, `GetPrivateKeyEntry`. -/
def getPrivateKeyEntry (ms : MemStore) (h : Str) : Except SErr KeyEntry :=
  match ms.privs h with
  | none => .error .noKeyEntry
  | some ke => .ok ke

/-- memstore.go:125-131, `GetPublicKeyEntry`. -/
def getPublicKeyEntry (ms : MemStore) (identity : Str) : Except SErr (KeyEntry × Str) :=
  match ms.pubs identity with
  | none => .error .noKeyEntry
  | some ke => .ok (ke, ms.nyms identity)

/-- memstore.go:256-265, `GetSessionKey`. -/
def getSessionKey (ms : MemStore) (h : Str) : Except SErr (KeyEntry × Str) :=
  match ms.skeys h with
  | none => .error .noKeyEntry
  | some x => .ok x

/-- memstore.go:268-275, `DelPrivSessionKey`. -/
def delPrivSessionKey (ms : MemStore) (h : Str) : MemStore :=
  match ms.skeys h with
  | none => ms
  | some (ke, _) => { ms with skeys := upd ms.skeys h (some (ke, [])) }

/-- The memory store as a handler for store calls; memstore.go:65-79 and 243-253
for the remaining one-line methods. -/
def handle (P : Prims) : {β : Type} → Req β → MemStore → β × MemStore
  | _, .getState k, ms => (.ok (ms.states k), ms)
  | _, .setState k s, ms => (.ok (), { ms with states := upd ms.states k (some s) })
  | _, .storeSession k root chain send recv, ms => ms.storeSession k root chain send recv
  | _, .hasSession k, ms => (ms.hasSession k, ms)
  | _, .getPriv h, ms => (ms.getPrivateKeyEntry h, ms)
  | _, .getPub i, ms => (ms.getPublicKeyEntry i, ms)
  | _, .getMsgKey k s i, ms => (ms.getMessageKey P k s i, ms)
  | _, .numKeys k, ms => (ms.numMessageKeys k, ms)
  | _, .getRootHash k, ms => (ms.getRootKeyHash P k, ms)
  | _, .getChain k, ms => (ms.getChainKey P k, ms)
  | _, .delMsgKey k s i, ms => ms.delMessageKey k s i
  | _, .addSKey h ke p, ms => (.ok (), { ms with skeys := upd ms.skeys h (some (ke, p)) })
  | _, .getSKey h, ms => (ms.getSessionKey h, ms)
  | _, .delSKey h, ms => (.ok (), ms.delPrivSessionKey h)
  | _, .write b, ms => ((), { ms with out := ms.out ++ b })

end MemStore
end Verif.Msg

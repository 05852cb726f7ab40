/-
keydb: the persistent session store (session.go, sessionstate.go,
sessionkey.go) and its use through cryptengine/keystore.go.

Simplifications: one database connection; SQL errors other than those the
statements themselves cause do not occur; key entries are stored as such
instead of as JSON texts (decoding inverts encoding).
-/
import Verif.Sql
import Verif.Msg.MemStore

namespace Verif.Keydb
open Verif.Msg Verif.Sql

/-- Row of table Sessions (keydb.go:67-73). -/
structure SessRow where
  key : Str
  root : Str
  chain : Str
  num : Nat
  deriving DecidableEq, Repr

/-- Row of table MessageKeys (keydb.go:75-83). -/
structure KeyRow where
  sid : Nat
  number : Nat
  key : Str
  dir : Bool
  deriving DecidableEq, Repr

/-- Row of table SessionKeys (keydb.go:106-112), without the clean-up time. -/
structure SKeyRow where
  hash : Str
  ke : KeyEntry
  priv : Str
  deriving DecidableEq, Repr

/-- The tables used by the session store. `lastId` is
`sqlite3_last_insert_rowid` of the connection: the identifier of the last row
inserted into any table. -/
structure DB where
  sessions : Table SessRow
  keys : Table KeyRow
  states : Table (Str × State)
  skeys : Table SKeyRow
  lastId : Nat

/-- A new database. -/
def DB.new : DB := ⟨[], [], [], [], 0⟩

/-- `GetSession` (session.go:96-112) and the id query (keydb.go:128). -/
def getSession (db : DB) (k : Str) : Option (Nat × SessRow) :=
  first (fun r => r.key == k) db.sessions

/-- One INSERT INTO MessageKeys (keydb.go:131). -/
def addKey (db : DB) (r : KeyRow) : DB :=
  { db with keys := insert db.keys r, lastId := nextId db.keys }

/-- The loop of `AddSession` (session.go:71-84). -/
def addKeys (db : DB) (sid : Nat) : Nat → List Str → List Str → DB
  | off, s :: ss, r :: rs =>
    let db := addKey db ⟨sid, off, s, true⟩
    let db := addKey db ⟨sid, off, r, false⟩
    addKeys db sid (off + 1) ss rs
  | _, _, _ => db

/-- `AddSession` (session.go:16-93). For a known session the row is updated,
and `LastInsertId` of the UPDATE (line 64) is the identifier of the last
inserted row of whatever table. -/
def addSession (db : DB) (k root chain : Str) (send recv : List Str) : Except SErr Unit × DB :=
  if k = [] then (.error .other, db)
  else if root = [] then (.error .other, db)
  else if chain = [] then (.error .other, db)
  else if send.length ≠ recv.length then (.error .lengths, db)
  else match getSession db k with
  | none =>
    let id := nextId db.sessions
    let db := { db with sessions := insert db.sessions ⟨k, root, chain, send.length⟩, lastId := id }
    (.ok (), addKeys db id 0 send recv)
  | some (_, row) =>
    let set : SessRow → SessRow := fun r => { r with chain := chain, num := row.num + send.length }
    let db := { db with sessions := update (fun r => r.key == k) set db.sessions }
    (.ok (), addKeys db db.lastId row.num send recv)

/-- Largest number database/sql passes to SQLite; larger unsigned values are
an error. -/
def maxInt : Nat := 2 ^ 63

/-- The condition of the message key queries (keydb.go:132-133). -/
def keyQuery (sid number : Nat) (dir : Bool) (r : KeyRow) : Bool :=
  r.sid == sid && r.number == number && r.dir == dir

/-- `GetMessageKey` (session.go:115-135). -/
def getKeyText (db : DB) (k : Str) (sender : Bool) (i : UInt64) : Except SErr Str :=
  match getSession db k with
  | none => .error .noSession
  | some (id, _) =>
    if maxInt ≤ i.toNat then .error .other else
    match first (keyQuery id i.toNat sender) db.keys with
    | none => .error .keyUsed
    | some (_, r) => .ok r.key

/-- `CryptEngine.GetMessageKey` (keystore.go:109-130). -/
def getMessageKey (P : Prims) (db : DB) (k : Str) (sender : Bool) (i : UInt64) : Except SErr Bytes :=
  match getKeyText db k sender i with
  | .error e => .error e
  | .ok key => match P.unb64 key with
    | none => .error .cannotDecode
    | some b => if b.length < 64 then .error .wrongLength else .ok (b.take 64)

/-- `HasSession` (keystore.go:46-56). -/
def hasSession (db : DB) (k : Str) : Bool := (getSession db k).isSome

/-- `NumMessageKeys` (keystore.go:133-139). -/
def numMessageKeys (db : DB) (k : Str) : Except SErr UInt64 :=
  match getSession db k with
  | none => .error .noSession
  | some (_, r) => .ok (UInt64.ofNat r.num)

/-- `GetRootKeyHash` (keystore.go:142-157). -/
def getRootKeyHash (P : Prims) (db : DB) (k : Str) : Except SErr Bytes :=
  match getSession db k with
  | none => .error .noSession
  | some (_, r) => match P.unb64 r.root with
    | none => .error .cannotDecode
    | some b => if b.length < 64 then .error .wrongLength else .ok (b.take 64)

/-- `GetChainKey` (keystore.go:160-175). -/
def getChainKey (P : Prims) (db : DB) (k : Str) : Except SErr Bytes :=
  match getSession db k with
  | none => .error .noSession
  | some (_, r) => match P.unb64 r.chain with
    | none => .error .cannotDecode
    | some b => if b.length < 32 then .error .wrongLength else .ok (b.take 32)

/-- `DelMessageKey` (session.go:138-157). -/
def delMessageKey (db : DB) (k : Str) (sender : Bool) (i : UInt64) : Except SErr Unit × DB :=
  match getSession db k with
  | none => (.error .noSession, db)
  | some (id, _) =>
    if maxInt ≤ i.toNat then (.error .other, db) else
    (.ok (), { db with keys := delete (keyQuery id i.toNat sender) db.keys })

/-- `GetSessionState` (sessionstate.go:16-82). -/
def getState (db : DB) (k : Str) : Except SErr (Option State) :=
  if k = [] then .error .other
  else .ok ((first (fun r => r.1 == k) db.states).map fun r => r.2.2)

/-- `SetSessionState` (sessionstate.go:86-134). Counters with the top bit set
are refused by database/sql. -/
def setState (db : DB) (k : Str) (s : State) : Except SErr Unit × DB :=
  if k = [] then (.error .other, db)
  else if maxInt ≤ s.senderSessionCount.toNat ∨ maxInt ≤ s.senderMessageCount.toNat ∨
      maxInt ≤ s.maxRecipientCount.toNat then (.error .other, db)
  else if (first (fun r => r.1 == k) db.states).isSome then
    (.ok (), { db with states := update (fun r => r.1 == k) (fun r => (r.1, s)) db.states })
  else (.ok (), { db with states := insert db.states (k, s), lastId := nextId db.states })

/-- `AddSessionKey` (sessionkey.go:14-32). -/
def addSKey (db : DB) (h : Str) (ke : KeyEntry) (priv : Str) : Except SErr Unit × DB :=
  if h = [] then (.error .other, db)
  else if priv = [] then (.error .other, db)
  else (.ok (), { db with skeys := insert db.skeys ⟨h, ke, priv⟩, lastId := nextId db.skeys })

/-- `GetSessionKey` (sessionkey.go:35-50, keystore.go:195-207). -/
def getSKey (db : DB) (h : Str) : Except SErr (KeyEntry × Str) :=
  if h = [] then .error .other
  else match first (fun r => r.hash == h) db.skeys with
    | none => .error .noKeyEntry
    | some (_, r) => .ok (r.ke, r.priv)

/-- `DelPrivSessionKey` (sessionkey.go:54-63). -/
def delSKey (db : DB) (h : Str) : Except SErr Unit × DB :=
  if h = [] then (.error .other, db)
  else (.ok (), { db with skeys := update (fun r => r.hash == h) (fun r => { r with priv := [] }) db.skeys })

end Verif.Keydb

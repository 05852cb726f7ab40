/-
Package walletstore (serviceguard/client/walletstore/store.go): the wallet database.

Each exported function is one definition on the two tables; each SQL statement is atomic, and
a function with two statements is given as two definitions where a crash between them matters.
Rows are listed in insertion order. The database is SQLite as in ctrlengine; RowsAffected is
the number of matched rows. Errors of the database other than violated constraints are not
modelled.
-/
import Verif.Guard.TokenProps

namespace Verif.Guard.Store
open Verif.Util
open Verif.Mix (unhex)

/-- A row of walletTokens (store.go:24-39). -/
structure Row where
  lockTime : Int
  lockID : Int
  g : Global
  deriving DecidableEq, Repr

/-- The tables walletTokens and walletState (store.go:24-45). -/
structure Db where
  tokens : List Row
  states : List (Bytes × Bytes)
  deriving DecidableEq, Repr

/-- Errors of the store: `sql.ErrNoRows`, `ErrLocked`, `ErrNoToken`, and a decode error. -/
inductive Err where
  | noRows
  | locked
  | noToken
  | decode
  deriving DecidableEq, Repr

/-- ClientMaxLockAge and ClientExpireEdge (common/constants/constants.go). -/
def maxLockAge : Int := 3600
/-- See `maxLockAge`. -/
def expireEdge : Int := 604800

/-- The row of a hash. -/
def Db.row (db : Db) (h : Bytes) : Option Row := db.tokens.find? (·.g.hash == h)

/-- setTokenQuery, and setTokenUpdateQuery if the hash exists (store.go:223-235). The update
keeps the lock. -/
def Db.setRow (db : Db) (g : Global) : Db :=
  if db.tokens.any (·.g.hash == g.hash) then
    { db with tokens := db.tokens.map fun r => if r.g.hash == g.hash then { r with g := g } else r }
  else { db with tokens := db.tokens ++ [⟨0, 0, g⟩] }

/-- setStateQuery, and setStateUpdateQuery if the hash exists (store.go:237-243). -/
def Db.setState (db : Db) (h s : Bytes) : Db :=
  if db.states.any (·.1 == h) then
    { db with states := db.states.map fun r => if r.1 == h then (h, s) else r }
  else { db with states := db.states ++ [(h, s)] }

/-- `SetToken` (store.go:221-246). -/
def Db.setToken (db : Db) (e : Entry) : Res Err Db :=
  match encodeToken e with
  | .panic => .panic
  | .err _ => .panic
  | .ok (g, s) => .ok (if s.length > 0 then (db.setRow g).setState g.hash s else db.setRow g)

/-- The state of a row (store.go:264-269); `none` is a missing row. -/
def Db.state (db : Db) (g : Global) (h : Bytes) : Option Bytes :=
  if g.hasParams || g.hasState then (db.states.find? (·.1 == h)).map (·.2) else some []

/-- `GetToken` (store.go:249-271). -/
def Db.getToken (db : Db) (hash : Bytes) (lockID : Int) : Res Err Entry :=
  match db.row (hex hash) with
  | none => .err .noRows
  | some r =>
    if lockID ≥ 0 ∧ r.lockID ≠ 0 ∧ r.lockID ≠ lockID then .err .locked
    else match db.state r.g (hex hash) with
      | none => .err .noRows
      | some s => match decodeToken r.g s with
        | none => .err .decode
        | some e => .ok e

/-- `DelToken` (store.go:274-278). -/
def Db.delToken (db : Db) (hash : Bytes) : Db :=
  ⟨db.tokens.filter fun r => !(r.g.hash == hex hash), db.states.filter fun r => !(r.1 == hex hash)⟩

/-- Whether lockQuery matches a row (store.go:58): AND binds stronger than OR. -/
def lockMatches (hash : Bytes) (id : Int) (r : Row) : Bool := (r.g.hash == hex hash && r.lockID == 0) || r.lockID == id

/-- `LockToken` (store.go:287-301) with the random ID `id`. -/
def Db.lock (db : Db) (hash : Bytes) (id now : Int) : Db × Int :=
  if db.tokens.any (lockMatches hash id) then
    ({ db with tokens := db.tokens.map fun r => if lockMatches hash id r then { r with lockID := id, lockTime := now } else r }, id)
  else (db, -1)

/-- `UnlockToken` (store.go:304-307). -/
def Db.unlock (db : Db) (hash : Bytes) : Db :=
  { db with tokens := db.tokens.map fun r => if r.g.hash == hex hash then { r with lockID := 0, lockTime := 0 } else r }

/-- `CleanLocks` (store.go:212-218). -/
def Db.cleanLocks (db : Db) (force : Bool) (now : Int) : Db :=
  let limit := if force then 4294967295 else now + maxLockAge
  { db with tokens := db.tokens.map fun r =>
    if r.lockTime ≠ 0 ∧ r.lockTime < limit then { r with lockID := 0, lockTime := 0 } else r }

/-- `NewFromDB` with `initDB` (store.go:117-126, 143-209): the effect on existing tables. -/
def Db.reopen (db : Db) (now : Int) : Db := db.cleanLocks false now

/-- ORDER BY Expire ASC LIMIT 1: the first of the rows with the smallest expiry. -/
def minExpire : List Row → Option Row
  | [] => none
  | r :: l => match minExpire l with
    | none => some r
    | some m => if m.g.expire < r.g.expire then some m else some r

/-- The condition of findTokenOwnerQuery, findTokenAnyQuery and of the counts
(store.go:66-67, 71-72). -/
def usable (usage : Bytes) (owner : Option Bytes) (r : Row) : Bool :=
  r.lockID == 0 && !r.g.hasState && !r.g.ownedSelf && r.g.usage == usage &&
  (match owner with | none => true | some o => r.g.ownerPub == Base64.encode o)

/-- The condition of findTokenSelfQuery and countOwnQuery (store.go:65, 70). -/
def usableSelf (usage : Bytes) (r : Row) : Bool :=
  r.lockID == 0 && !r.g.hasState && r.g.ownedSelf && r.g.usage == usage

/-- `getAndLockToken` (store.go:404-429) with the random ID `id`. -/
def Db.getAndLock1 (db : Db) (usage : Bytes) (owner : Option Bytes) (id now : Int) : Db × Res Err Entry :=
  match minExpire (db.tokens.filter (usable usage owner)) with
  | none => (db, .err .noToken)
  | some r => match unhex r.g.hash with
    | none => (db, .err .noToken)
    | some hash =>
      let (db', l) := db.lock hash id now
      if l ≤ 0 then (db', .err .locked) else (db', db'.getToken hash l)

/-- `GetAndLockToken` (store.go:392-402); `ids` are the random IDs of the attempts, at most
five are used. -/
def Db.getAndLock (db : Db) (usage : Bytes) (owner : Option Bytes) (now : Int) : Nat → (Nat → Int) → Db × Res Err Entry
  | 0, _ => (db, .err .noToken)
  | n + 1, ids =>
    match db.getAndLock1 usage owner (ids n) now with
    | (db', .err .locked) => db'.getAndLock usage owner now n ids
    | r => r

/-- `FindToken` (store.go:432-445). -/
def Db.findToken (db : Db) (usage : Bytes) : Res Err Entry :=
  match minExpire (db.tokens.filter (usableSelf usage)) with
  | none => .err .noToken
  | some r => match unhex r.g.hash with
    | none => .err .noToken
    | some hash => db.getToken hash (-1)

/-- `GetExpire` (store.go:448-460). -/
def Db.getExpire (db : Db) (now : Int) : Option Bytes :=
  (minExpire (db.tokens.filter fun r => r.lockID == 0 && r.g.renewable && !r.g.hasState && !r.g.hasParams && r.g.ownedSelf &&
    decide (r.g.expire < now + expireEdge))).bind fun r => unhex r.g.hash

/-- `GetInReissue` (store.go:463-474). -/
def Db.getInReissue (db : Db) : Option Bytes :=
  (minExpire (db.tokens.filter fun r => r.lockID == 0 && r.g.hasState)).bind fun r => unhex r.g.hash

/-- `GetBalance` (store.go:487-501). -/
def Db.balance (db : Db) (usage : Bytes) (owner : Option Bytes) : Nat := (db.tokens.filter (usable usage owner)).length

/-- `GetBalanceOwn` (store.go:477-484). -/
def Db.balanceOwn (db : Db) (usage : Bytes) : Nat := (db.tokens.filter (usableSelf usage)).length

/-- Whether finalExpireQuery selects a row (store.go:73, 509). -/
def unusable (now : Int) (r : Row) : Bool := decide (r.g.expire < now - expireEdge)

/-- `ExpireUnusable` (store.go:505-530): the tables and whether to call again. -/
def Db.expire (db : Db) (now : Int) : Db × Bool :=
  let hashes := ((db.tokens.filter (unusable now)).take 10).filterMap fun r => unhex r.g.hash
  (hashes.foldl Db.delToken db, decide (hashes.length ≥ 10))

/-- The caller's loop over `ExpireUnusable`, at most `n` times. -/
def Db.expireLoop (now : Int) : Nat → Db → Db × Bool
  | 0, db => (db, true)
  | n + 1, db => match db.expire now with
    | (db', true) => Db.expireLoop now n db'
    | r => r

/-! ### the database in use -/

/-- What users of the store do; each call with its random ID and time. -/
inductive Op where
  | set (e : Entry)
  | lock (hash : Bytes) (id now : Int)
  | unlock (hash : Bytes)
  | del (hash : Bytes)
  | clean (force : Bool) (now : Int)
  | reopen (now : Int)
  | take (usage : Bytes) (owner : Option Bytes) (now : Int) (ids : Nat → Int)
  | expire (now : Int)

/-- The tables after a call. A panic leaves them. -/
def step (db : Db) : Op → Db
  | .set e => match db.setToken e with | .ok d => d | _ => db
  | .lock h i n => (db.lock h i n).1
  | .unlock h => db.unlock h
  | .del h => db.delToken h
  | .clean f n => db.cleanLocks f n
  | .reopen n => db.reopen n
  | .take u o n ids => (db.getAndLock u o n 5 ids).1
  | .expire n => (db.expire n).1

/-- The tables after a list of calls. -/
def run (db : Db) (ops : List Op) : Db := ops.foldl step db

/-- Reachable tables: hashes are hex and unique. -/
structure Wf (db : Db) : Prop where
  unique : (db.tokens.map (·.g.hash)).Nodup
  isHex : ∀ r ∈ db.tokens, ∃ b, r.g.hash = hex b

end Verif.Guard.Store

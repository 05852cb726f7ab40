/-
cryptengine/hashchain.go, uid.go and keyinit.go: the key server client, with the
tables of keydb/keydb.go it uses.

The tables for UID and KeyInit messages hold the messages themselves instead of
their JSON text: everything the engine stores there was either made by
uid.Create/Update or read with the JSON decoder before, so decoding the stored
text gives it back. Rows that are compared by their JSON text still are. A reply
of the key server is any value of the reply types below; a failing call and a
reply with a field of the wrong type are cases of them. Errors of SQLite itself
are not modelled, except that the driver refuses integers from 2^63 on.
-/
import Verif.Uid.Model
import Verif.Sql

namespace Verif.Crypt

open Verif.Uid Verif.Util

/-- A row of Hashchains (keydb.go:84-90). -/
structure ChainRow where
  domain : Str
  pos : UInt64
  entry : Str
  deriving DecidableEq, Repr

/-- A row of PublicUIDs (keydb.go:42-49). -/
structure PubRow where
  identity : Str
  msgcount : UInt64
  pos : UInt64
  msg : Message
  deriving DecidableEq, Repr

/-- A row of PrivateUIDs (keydb.go:32-41). -/
structure PrivRow where
  identity : Str
  msgcount : UInt64
  owned : Owned
  reply : Option Reply
  deriving DecidableEq, Repr

/-- A row of PublicKeyInits (keydb.go:60-65). -/
structure KiRow where
  sigkeyhash : Str
  ki : KeyInit
  deriving DecidableEq, Repr

/-- The tables. -/
structure DB where
  chains : Sql.Table ChainRow
  pubs : Sql.Table PubRow
  privs : Sql.Table PrivRow
  kis : Sql.Table KiRow
  deriving DecidableEq, Repr

/-- Package identity: `MapDomain`, `MapPlus` (modelled in Verif.Ident on
characters). -/
structure Ids where
  mapDomain : Str → Str
  mapPlus : Str → Option (Str × Str)

/-- Errors of the engine. -/
inductive CErr where
  | rpc | wrongType | noEntries | noRow | sql | entry (e : EntryErr) | typ | link | recorded
  | identity | uid (e : Err) | index | noServerKey | notFound | already
  deriving DecidableEq, Repr

def ofUid {α : Type} : Res Err α → Res CErr α
  | .ok a => .ok a
  | .err e => .err (.uid e)
  | .panic => .panic

/-- database/sql refuses uint64 arguments with the high bit set. -/
def sqlInt (u : UInt64) : Bool := u.toNat < 2 ^ 63

/-! ### keydb -/

/-- The first row with the largest key among those that satisfy `p`:
SELECT … WHERE p ORDER BY key DESC, first row. -/
def top {α : Type} (key : α → UInt64) (p : α → Bool) (t : Sql.Table α) : Option α :=
  (Sql.vals t).foldl (fun best a =>
    if p a then match best with
      | none => some a
      | some b => if key b < key a then some a else best
    else best) none

/-- `AddHashChainEntry` (keydb.go:625-636). -/
def addEntry (I : Ids) (db : DB) (domain : Str) (pos : UInt64) (entry : Str) : Option DB :=
  if sqlInt pos then
    some { db with chains := Sql.insert db.chains ⟨I.mapDomain domain, pos, entry⟩ }
  else none

/-- `GetLastHashChainPos` (keydb.go:641-656). -/
def lastPos (I : Ids) (db : DB) (domain : Str) : Option UInt64 :=
  (top (·.pos) (fun r : ChainRow => r.domain = I.mapDomain domain) db.chains).map (·.pos)

/-- `GetHashChainEntry` (keydb.go:660-670). -/
def getEntry (I : Ids) (db : DB) (domain : Str) (pos : UInt64) : Res CErr Str :=
  if sqlInt pos = false then .err .sql else
  match Sql.first (fun r => r.domain = I.mapDomain domain && r.pos = pos) db.chains with
  | some (_, r) => .ok r.entry
  | none => .err .noRow

/-- `DelHashChain` (keydb.go:690-696). -/
def delChain (I : Ids) (db : DB) (domain : Str) : DB :=
  { db with chains := Sql.delete (fun r => r.domain = I.mapDomain domain) db.chains }

/-- `AddPublicUID` (keydb.go:587-598). -/
def addPub (db : DB) (m : Message) (pos : UInt64) : Option DB :=
  if sqlInt m.content.msgcount && sqlInt pos then
    some { db with pubs := Sql.insert db.pubs ⟨m.content.identity, m.content.msgcount, pos, m⟩ }
  else none

/-- `GetPublicUID` (keydb.go:602-621): the message with the highest position not
above `maxpos`. -/
def getPub (db : DB) (identity : Str) (maxpos : UInt64) : Option (Message × UInt64) :=
  (top (·.pos) (fun r : PubRow => r.identity = identity && r.pos ≤ maxpos) db.pubs).map
    fun r => (r.msg, r.pos)

/-- `AddPrivateUID` (keydb.go:397-410). -/
def addPriv (db : DB) (o : Owned) : Option DB :=
  if sqlInt o.msg.content.msgcount then
    some { db with
      privs := Sql.insert db.privs ⟨o.msg.content.identity, o.msg.content.msgcount, o, none⟩ }
  else none

/-- `GetPrivateUID` (keydb.go:477-519): the message with the highest counter; its
self signature is checked. -/
def getPriv (P : Prims) (db : DB) (identity : Str) : Res CErr (Owned × Option Reply) :=
  match top (·.msgcount) (fun r : PrivRow => r.identity = identity) db.privs with
  | none => .err .noRow
  | some r => match verifySelfSig P r.owned.msg with
    | .ok _ => .ok (r.owned, r.reply)
    | .err e => .err (.uid e)
    | .panic => .panic

/-- `AddPrivateUIDReply` (keydb.go:413-422). -/
def addPrivReply (P : Prims) (db : DB) (m : Message) (rep : Reply) : DB :=
  let f : PrivRow → PrivRow := fun r => { r with reply := some rep }
  { db with privs := Sql.update (fun r => P.msgJSON r.owned.msg = P.msgJSON m) f db.privs }

/-- `DelPrivateUID` (keydb.go:425-430). -/
def delPriv (P : Prims) (db : DB) (m : Message) : DB :=
  { db with privs := Sql.delete (fun r => P.msgJSON r.owned.msg = P.msgJSON m) db.privs }

/-- `GetPrivateIdentities` (keydb.go:433-451): SELECT DISTINCT. -/
def privIdentities (db : DB) : List Str := ((Sql.vals db.privs).map (·.identity)).eraseDups

/-- `AddPublicKeyInit` (keydb.go:560-566). -/
def addKi (db : DB) (ki : KeyInit) : DB :=
  { db with kis := Sql.insert db.kis ⟨ki.contents.sigkeyhash, ki⟩ }

/-- `GetPublicKeyInit` (keydb.go:570-583). -/
def getKi (db : DB) (sigkeyhash : Str) : Option KeyInit :=
  (Sql.first (fun r => r.sigkeyhash = sigkeyhash) db.kis).map (·.2.ki)

/-! ### hashchain.go -/

/-- Reply of KeyHashchain.FetchLastHashChain: `none` is a field of the wrong type;
the position is the reply's float64 converted to uint64. -/
structure LastReply where
  hcEntry : Option Str
  hcPos : Option UInt64

/-- Reply of KeyHashchain.FetchHashChain. -/
structure EntriesReply where
  entries : Option (List (Option Str))
  firstPos : Option UInt64

/-- The loop that stores the entries (hashchain.go:96-107), starting at position
`i`. The list is what is left of the entries; an index beyond it panics. A
failing insert ends the loop without error. -/
def storeEntries (I : Ids) (domain : Str) (last : UInt64) :
    List (Option Str) → UInt64 → DB → DB × Res CErr Unit
  | es, i, db =>
    if last < i then (db, .ok ()) else
    match es with
    | [] => (db, .panic)
    | none :: _ => (db, .err .wrongType)
    | some e :: rest => match addEntry I db domain i e with
      | none => (db, .ok ())
      | some db' => storeEntries I domain last rest (i + 1) db'

/-- Nothing to fetch (hashchain.go:55-61). -/
def inSync (have_ : Option UInt64) (hcPos : UInt64) : Bool :=
  match have_ with
  | some p => decide (hcPos ≤ p)
  | none => false

/-- The first position to fetch (hashchain.go:62-68). -/
def startPos : Option UInt64 → UInt64
  | some p => p + 1
  | none => 0

/-- `syncHashChain` (hashchain.go:24-110); `none` is a failed call. The second
call gets the positions the first reply leads to. -/
def sync (I : Ids) (domain : Str) (last : Option LastReply)
    (fetch : UInt64 → UInt64 → Option EntriesReply) (db : DB) : DB × Res CErr Unit :=
  match last with
  | none => (db, .err .rpc)
  | some l => match l.hcEntry with
    | none => (db, .err .wrongType)
    | some _ => match l.hcPos with
      | none => (db, .panic)
      | some hcPos =>
        if inSync (lastPos I db domain) hcPos then (db, .ok ()) else
        match fetch (startPos (lastPos I db domain)) hcPos with
        | none => (db, .err .rpc)
        | some r => match r.entries with
          | none => (db, .err .wrongType)
          | some es => match r.firstPos with
            | none => (db, .panic)
            | some first => storeEntries I domain hcPos es first db

/-- `hashchain.SplitEntry` with its errors. -/
def split (s : Str) : Res CErr Util.Entry :=
  match splitEntry s with
  | .ok e => .ok e
  | .err e => .err (.entry e)
  | .panic => .panic

/-- The bytes that are hashed for an entry (hashchain.go:146-152). -/
def preimage (e : Util.Entry) (prev : Bytes) : Bytes :=
  e.typ ++ e.nonce ++ e.hashID ++ e.crUID ++ e.uidIndex ++ prev

/-- The loop of `validateHashChain` (hashchain.go:126-156) over the positions. -/
def validateLoop (P : Prims) (I : Ids) (db : DB) (domain : Str) :
    List UInt64 → Bytes → Res CErr Unit
  | [], _ => .ok ()
  | i :: is, prev =>
    getEntry I db domain i >>= fun s =>
    split s >>= fun e =>
    if e.typ ≠ [1] then .err .typ else
    if e.hash ≠ P.sha256 (preimage e prev) then .err .link else
    validateLoop P I db domain is e.hash

/-- The loop over the own identities of the domain (hashchain.go:165-179).
`ids` is the list of identities. -/
def validateOwn (P : Prims) (I : Ids) (db : DB) (domain : Str) (max : UInt64) :
    List Str → Res CErr Unit
  | [] => .ok ()
  | id :: ids =>
    getPriv P db id >>= fun r =>
    match r.2 with
    | none => validateOwn P I db domain max ids
    | some rep =>
      if rep.entry.hashchainPos ≤ max then
        getEntry I db domain rep.entry.hashchainPos >>= fun s =>
        if s ≠ rep.entry.hashchainEntry then .err .recorded
        else validateOwn P I db domain max ids
      else validateOwn P I db domain max ids

/-- `GetPrivateIdentitiesForDomain` (keydb.go:455-472). -/
def identitiesFor (I : Ids) (domain : Str) : List Str → Res CErr (List Str)
  | [] => .ok []
  | id :: ids => match splitId id with
    | none => .err .identity
    | some (_, d) =>
      identitiesFor I domain ids >>= fun rest =>
      .ok (if d = I.mapDomain domain then id :: rest else rest)

/-- The positions 0, …, max of the loops. -/
def positions (max : UInt64) : List UInt64 := (List.range (max.toNat + 1)).map UInt64.ofNat

/-- `validateHashChain` (hashchain.go:115-182). -/
def validate (P : Prims) (I : Ids) (db : DB) (domain : Str) : Res CErr Unit :=
  match lastPos I db domain with
  | none => .err .noEntries
  | some max =>
    validateLoop P I db domain (positions max) (List.replicate 32 0) >>= fun _ =>
    identitiesFor I domain (privIdentities db) >>= fun ids =>
    validateOwn P I db domain max ids

/-- `cipher.CKDF` (ckdf.go:14-52). -/
def ckdf (P : Prims) (nonce : Bytes) : Bytes × Bytes :=
  let a := P.sha512 nonce
  let a1 := a.take 32 ++ a.take 32
  let a2 := a.drop 32 ++ a.drop 32
  (P.sha512 (a1.map (· ^^^ 0x5c) ++ P.sha512 (a2.map (· ^^^ 0x36))),
   P.sha512 (a2.map (· ^^^ 0x5c) ++ P.sha512 (a1.map (· ^^^ 0x36))))

/-- `verifyServerSig` (hashchain.go:240-264). `Localpart` and `Domain` panic on an
identity without exactly one '@' (uid.go:550-567). -/
def verifyServerSig (P : Prims) (db : DB) (m : Message) (r : Reply) (pos : UInt64) : Res CErr Unit :=
  match splitId m.content.identity with
  | none => .panic
  | some (lp, domain) =>
    if lp = lit "keyserver" ∧ m.content.msgcount = 0 then .ok () else
    if sqlInt pos = false then .err .sql else
    match getPub db (lit "keyserver@" ++ domain) pos with
    | none => .err .noServerKey
    | some (srv, _) => ofUid (verifySrvSig P r m srv.content.sigkey.pubkey)

/-- The message at this position is stored already (hashchain.go:319-328). -/
def hasPub (db : DB) (mapped : Str) (i : UInt64) : Bool :=
  match getPub db mapped i with
  | some (_, p) => decide (p = i)
  | none => false

/-- What happens with a hash chain entry that matches the identity
(hashchain.go:319-374): fetch, decrypt, verify and store. -/
def matchEntry (P : Prims) (fetch : UInt64 → Bytes → Option Reply) (mapped : Str) (db : DB)
    (i : UInt64) (e : Util.Entry) : DB × Res CErr Unit :=
  if sqlInt i = false then (db, .err .sql) else
  if hasPub db mapped i then (db, .ok ()) else
    match fetch i e.uidIndex with
    | none => (db, .err .rpc)
    | some r => match Cipher.cbcDecrypt P.aes (P.sha256 ((ckdf P e.nonce).2 ++ mapped)) e.crUID with
      | .ok uidHash => match replyDecrypt P r uidHash with
        | .ok (index, m) =>
          if index ≠ e.uidIndex then (db, .err .index) else
          match verifySelfSig P m with
          | .ok _ => match verifyServerSig P db m r i with
            | .ok _ => match addPub db m i with
              | some db' => (db', .ok ())
              | none => (db, .err .sql)
            | .err x => (db, .err x)
            | .panic => (db, .panic)
          | .err x => (db, .err (.uid x))
          | .panic => (db, .panic)
        | .err x => (db, .err (.uid x))
        | .panic => (db, .panic)
      | _ => (db, .panic)

/-- Does the entry belong to the identity (hashchain.go:301-313)? -/
def isFor (P : Prims) (mapped : Str) (e : Util.Entry) : Bool :=
  e.hashID = P.sha256 ((ckdf P e.nonce).1 ++ mapped)

/-- The loop of `searchHashChain` (hashchain.go:286-377). `fetch` is the key
repository, asked at most once per position. The result says whether a match was
found. -/
def searchLoop (P : Prims) (I : Ids) (fetch : UInt64 → Bytes → Option Reply) (domain mapped : Str)
    (searchOnly : Bool) : List UInt64 → Bool → DB → DB × Res CErr Bool
  | [], found, db => (db, .ok found)
  | i :: is, found, db => match getEntry I db domain i with
    | .err e => (db, .err e)
    | .panic => (db, .panic)
    | .ok s => match split s with
      | .err e => (db, .err e)
      | .panic => (db, .panic)
      | .ok e =>
        if e.typ ≠ [1] then (db, .err .typ) else
        if isFor P mapped e = false then
          searchLoop P I fetch domain mapped searchOnly is found db
        else if searchOnly then (db, .ok true)
        else match matchEntry P fetch mapped db i e with
          | (db', .ok _) => searchLoop P I fetch domain mapped searchOnly is true db'
          | (db', .err x) => (db', .err x)
          | (db', .panic) => (db', .panic)

/-- `searchHashChain` (hashchain.go:269-384). -/
def search (P : Prims) (I : Ids) (fetch : UInt64 → Bytes → Option Reply) (id : Str)
    (searchOnly : Bool) (db : DB) : DB × Res CErr Unit :=
  match I.mapPlus id with
  | none => (db, .err .identity)
  | some (mapped, domain) => match lastPos I db domain with
    | none => (db, .err .noEntries)
    | some max =>
      match searchLoop P I fetch domain mapped searchOnly (positions max) false db with
      | (db', .ok true) => (db', .ok ())
      | (db', .ok false) => (db', .err .notFound)
      | (db', .err e) => (db', .err e)
      | (db', .panic) => (db', .panic)

/-- The loop of `lookupHashChain` (hashchain.go:414-505) over the positions the
server names; `none` is a position of the wrong type. -/
def lookupLoop (P : Prims) (I : Ids) (fetch : UInt64 → Bytes → Option Reply) (domain mapped : Str) :
    List (Option UInt64) → Bool → DB → DB × Res CErr Bool
  | [], found, db => (db, .ok found)
  | none :: _, _, db => (db, .err .wrongType)
  | some i :: is, _, db => match getEntry I db domain i with
    | .err e => (db, .err e)
    | .panic => (db, .panic)
    | .ok s => match split s with
      | .err e => (db, .err e)
      | .panic => (db, .panic)
      | .ok e =>
        if e.typ ≠ [1] then (db, .err .typ) else
        if isFor P mapped e = false then (db, .err .index)
        else match matchEntry P fetch mapped db i e with
          | (db', .ok _) => lookupLoop P I fetch domain mapped is true db'
          | (db', .err x) => (db', .err x)
          | (db', .panic) => (db', .panic)

/-- `lookupHashChain` (hashchain.go:386-512); the positions are the reply of
KeyHashchain.LookupUID, `none` a failed call or a reply of the wrong type. -/
def lookup (P : Prims) (I : Ids) (fetch : UInt64 → Bytes → Option Reply) (id : Str)
    (hcPositions : Option (List (Option UInt64))) (db : DB) : DB × Res CErr Unit :=
  match I.mapPlus id with
  | none => (db, .err .identity)
  | some (mapped, domain) => match hcPositions with
    | none => (db, .err .rpc)
    | some ps => match lookupLoop P I fetch domain mapped ps false db with
      | (db', .ok true) => (db', .ok ())
      | (db', .ok false) => (db', .err .notFound)
      | (db', .err e) => (db', .err e)
      | (db', .panic) => (db', .panic)

/-! ### uid.go -/

/-- `generate` for a nym that is no key server (uid.go:21-64). `r1 r2` are the
random values, `later` is the time one year from now. -/
def generate (P : Prims) (I : Ids) (pseudonym : Str) (later : UInt64) (r1 r2 : Option Bytes)
    (db : DB) : DB × Res CErr Unit :=
  match I.mapPlus pseudonym with
  | none => (db, .err .identity)
  | some (id, domain) => match lastPos I db domain with
    | none => (db, .err .noEntries)
    | some p => match getEntry I db domain p with
      | .ok lastEntry => match create P id false [] [] .strict lastEntry later r1 r2 none with
        | .ok o => match addPriv db o with
          | some db' => (db', .ok ())
          | none => (db, .err .sql)
        | .err e => (db, .err (.uid e))
        | .panic => (db, .panic)
      | .err e => (db, .err e)
      | .panic => (db, .panic)

/-- `registerOrUpdate` (uid.go:66-126): `server` is the key server's answer to the
message (`none`: failed call or wrong type), `srvPub` the first of the server's
advertised keys. The reply is stored before it is verified. -/
def registerOrUpdate (P : Prims) (I : Ids) (pseudonym : Str) (server : Message → Option Reply)
    (srvPub : Str) (db : DB) : DB × Res CErr Unit :=
  match I.mapPlus pseudonym with
  | none => (db, .err .identity)
  | some (id, _) => match getPriv P db id with
    | .err e => (db, .err e)
    | .panic => (db, .panic)
    | .ok (_, some _) => (db, .err .already)
    | .ok (o, none) => match server o.msg with
      | none => (db, .err .rpc)
      | some rep =>
        (addPrivReply P db o.msg rep, ofUid (verifySrvSig P rep o.msg srvPub))

/-- `genupdate` (uid.go:134-152). -/
def genupdate (P : Prims) (I : Ids) (pseudonym : Str) (r : Option Bytes) (db : DB) :
    DB × Res CErr Unit :=
  match I.mapPlus pseudonym with
  | none => (db, .err .identity)
  | some (id, _) => match getPriv P db id with
    | .err e => (db, .err e)
    | .panic => (db, .panic)
    | .ok (o, _) => match update P o r with
      | .err e => (db, .err (.uid e))
      | .panic => (db, .panic)
      | .ok o' => match addPriv db o' with
        | some db' => (db', .ok ())
        | none => (db, .err .sql)

/-- `deleteUID` with confirmation given (uid.go:160-189). -/
def deleteUID (P : Prims) (I : Ids) (pseudonym : Str) (db : DB) : DB × Res CErr Unit :=
  match I.mapPlus pseudonym with
  | none => (db, .err .identity)
  | some (id, _) => match getPriv P db id with
    | .err e => (db, .err e)
    | .panic => (db, .panic)
    | .ok (o, _) => (delPriv P db o.msg, .ok ())

/-! ### keyinit.go, keystore.go -/

/-- `SigKeyHash` (uid.go:355-361) of the SIGKEY hash of a message (314-316). -/
def sigKeyHash (P : Prims) (m : Message) : Res Err Str :=
  unb64 m.content.sigkey.hash >>= fun h => .ok (Base64.encode (P.sha512 h))

/-- `fetchKeyInit` (keyinit.go:89-131): the reply is stored as it is. The UID
message is looked up with the largest position the driver accepts. -/
def fetchKeyInit (P : Prims) (I : Ids) (pseudonym : Str) (server : Str → Option KeyInit) (db : DB) :
    DB × Res CErr Unit :=
  match I.mapPlus pseudonym with
  | none => (db, .err .identity)
  | some (id, _) => match getPub db id 9223372036854775807 with
    | none => (db, .err .notFound)
    | some (m, _) => match sigKeyHash P m with
      | .err e => (db, .err (.uid e))
      | .panic => (db, .panic)
      | .ok h => match server h with
        | none => (db, .err .rpc)
        | some ki => (addKi db ki, .ok ())

/-- `GetPublicKeyEntry` (keystore.go:81-106): the key the message encryption uses
for the recipient. -/
def getPublicKeyEntry (P : Prims) (db : DB) (m : Message) : Res CErr (KeyEntry × Str) :=
  match sigKeyHash P m with
  | .err e => .err (.uid e)
  | .panic => .panic
  | .ok h => match getKi db h with
    | none => .err .noRow
    | some ki => match sessionAnchor P ki m.content.sigkey.pubkey with
      | .err e => .err (.uid e)
      | .panic => .panic
      | .ok sa => match anchorKey sa (lit "ECDHE25519") with
        | .ok ke => .ok (ke, sa.nymaddress)
        | .err e => .err (.uid e)
        | .panic => .panic

end Verif.Crypt

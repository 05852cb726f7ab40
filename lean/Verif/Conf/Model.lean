/-
Package configclient: signed configuration maps (sortedmap), the order of servers
(roundrobin) and fetching the configuration (client.go).

JSON decoding of the server's reply, HTTP, PEM and X.509 parsing, SHA-512 and Ed25519
are parameters. Times are unsigned 64 bit seconds.
-/
import Verif.Mix.Client

namespace Verif.Conf
open Verif.Mix (unhex atoi fix32)

/-! ### sortedmap/map.go -/

/-- `StringMap` (map.go:16-17): the entries in the order of one iteration; keys are
distinct (`KeysDistinct`). -/
abbrev SMap := List (Bytes × Bytes)

/-- A Go map has every key once. -/
def KeysDistinct (m : SMap) : Prop := m.Pairwise fun x y => x.1 ≠ y.1

/-- Go's `<` on strings: lexicographic on bytes. -/
def strLe : Bytes → Bytes → Bool
  | [], _ => true
  | _ :: _, [] => false
  | a :: as, b :: bs => if a < b then true else if b < a then false else strLe as bs

/-- Insert into a sorted list. -/
def insertKV (x : Bytes × Bytes) : SMap → SMap
  | [] => [x]
  | y :: l => if strLe x.1 y.1 then x :: y :: l else y :: insertKV x l

/-- `Sort` (map.go:36-48). With distinct keys every sorting algorithm gives this list. -/
def sortMap (m : SMap) : SMap := m.foldr insertKV []

/-- `binary.BigEndian.PutUint64`. -/
def be64 (n : Nat) : Bytes := (List.range 8).map fun j => UInt8.ofNat (n / 256 ^ (7 - j))

/-- `lenByte` (map.go:67-75). -/
def lenByte (d : Bytes) : Bytes := be64 d.length ++ d

/-- The bytes hashed by `Image` for the entries (map.go:82-95). -/
def entryBytes (so : SMap) : Bytes := so.flatMap fun e => lenByte e.1 ++ lenByte e.2

/-- All bytes hashed by `Image` (map.go:77-101). -/
def imageBytes (so : SMap) : Bytes := entryBytes so ++ be64 (entryBytes so).length

/-- Hash and signature functions, PEM and X.509. -/
structure Prims where
  sha512 : Bytes → Bytes
  sign : Bytes → Bytes → Bytes
  verify : Bytes → Bytes → Bytes → Bool
  pem : Bytes → Option Bytes
  x509 : Bytes → Bool

/-- The signed bytes (map.go:103-122). -/
def signed (P : Prims) (so : SMap) (date : UInt64) : Bytes := P.sha512 (imageBytes so) ++ be64 date.toNat

/-- `Verify` (map.go:112-122). -/
def verifyMap (P : Prims) (so : SMap) (date : UInt64) (pub sig : Bytes) : Bool := P.verify (fix32 pub) (signed P so date) sig

/-! ### sortedmap/signedmap.go -/

/-- `SignedMap` (signedmap.go:27-32). -/
structure SignedMap where
  config : SMap
  signature : Bytes
  signDate : UInt64
  deriving DecidableEq, Repr

/-- `GenerateCertificate` (signedmap.go:60-68) before marshalling. -/
def generate (P : Prims) (now : UInt64) (priv : Bytes) (m : SMap) : SignedMap :=
  ⟨m, P.sign priv (signed P (sortMap m) now), now⟩

/-- `diff` (signedmap.go:34-39). -/
def diff (a b : UInt64) : UInt64 := if b < a then a - b else b - a

/-- `Certify` of a decoded map (signedmap.go:70-86). -/
def certify (P : Prims) (now last : UInt64) (pub : Bytes) (sm : SignedMap) : Bool :=
  if 0 < last ∧ sm.signDate < last then false
  else if 14400 < diff now sm.signDate then false
  else verifyMap P (sortMap sm.config) sm.signDate pub sm.signature

/-! ### roundrobin -/

/-- `server` (roundrobin.go:20-23). -/
structure Srv where
  prio : Int
  url : Bytes
  deriving DecidableEq, Repr

/-- A field separator of `strings.Fields`: ASCII white space (Go also knows some other
Unicode characters). -/
def isSpace (c : UInt8) : Bool := c == 32 || (9 ≤ c && c ≤ 13)

/-- Split at separators, dropping empty fields: `strings.Fields` after replacing `sep` by
a blank. -/
def fieldsGo (sep : UInt8) : Bytes → Bytes → List Bytes
  | [], cur => if cur = [] then [] else [cur]
  | c :: cs, cur =>
    if c == sep || isSpace c then (if cur = [] then [] else [cur]) ++ fieldsGo sep cs []
    else fieldsGo sep cs (cur ++ [c])

def fields (sep : UInt8) (s : Bytes) : List Bytes := fieldsGo sep s []

/-- "http://" -/
def http : Bytes := [104, 116, 116, 112, 58, 47, 47]

/-- One field of the list (roundrobin.go:32-38). A number that is out of range is read as
the nearest int by Go and as 0 here. -/
def parseServer (x : Bytes) : Option Srv :=
  match fields 44 x with
  | p :: u :: _ => some ⟨(atoi p).getD 0, http ++ u⟩
  | _ => none

/-- `ParseServers` (roundrobin.go:28-41). -/
def parseServers (s : Bytes) : List Srv := (fields 59 s).filterMap parseServer

/-- `randomize` (roundrobin.go:52-59) with the permutation `x`: `ret[x[i]] = s[i]`. -/
def place : List Nat → List Bytes → List Bytes → List Bytes
  | i :: is, s :: ss, ret => place is ss (ret.set i s)
  | _, _, ret => ret

def randomize (x : List Nat) (s : List Bytes) : List Bytes := place x s (List.replicate s.length [])

/-- The groups that `Order` makes (roundrobin.go:62-79): `cur` is nil at the start. -/
def groupGo : List Srv → Int → Option (List Bytes) → List (List Bytes)
  | [], _, cur => cur.toList
  | s :: l, prio, cur =>
    if prio = s.prio then groupGo l prio (some (cur.getD [] ++ [s.url]))
    else cur.toList ++ groupGo l s.prio (some [s.url])

/-- `Order` (roundrobin.go:61-85): `perm k` is the k-th random permutation. -/
def order (perm : Nat → List Nat) (sl : List Srv) : List Bytes :=
  ((groupGo sl 0 none).mapIdx fun k g => randomize (perm k) g).flatten

/-! ### cahash/hash.go and client.go -/

/-- `cahash.Hash` (hash.go:14-22): a nil block panics. -/
def cahash (P : Prims) (cert : Bytes) : Res Unit Bytes :=
  match P.pem cert with
  | none => .panic
  | some b => if P.x509 b then .ok (P.sha512 b) else .err ()

/-- What the servers reply during one `Update`: the order of the servers, the decoded
configuration and the CA certificate of each, and the time. `none` is an error of HTTP,
reading or JSON decoding. -/
structure Env where
  now : UInt64
  servers : List Bytes
  cfg : Bytes → Option SignedMap
  ca : Bytes → Option Bytes

/-- `Config` (client.go:35-45) without the list of URLs, the timeout and the list of
servers, which every `Update` computes anew. -/
structure Config where
  publicKey : Bytes
  caCert : Option Bytes
  map : Option SMap
  lastSignDate : UInt64
  curServer : Nat

/-- The first server for which `f` succeeds, with its index. -/
def tryAll {α : Type} (f : Bytes → Option α) : List Bytes → Nat → Option (Nat × α)
  | [], _ => none
  | u :: us, i => match f u with
    | some a => some (i, a)
    | none => tryAll f us (i + 1)

/-- `getCACert` (client.go:146-168) for a hash that is already decoded. -/
def getCACert (P : Prims) (e : Env) (hash u : Bytes) : Res Unit Bytes :=
  match e.ca u with
  | none => .err ()
  | some p => cahash P p >>= fun h => if h = hash then .ok p else .err ()

/-- `CALoop` (client.go:95-100). -/
def caLoop (P : Prims) (e : Env) (hash : Bytes) : List Bytes → Nat → Res Unit (Nat × Bytes)
  | [], _ => .err ()
  | u :: us, i => match getCACert P e hash u with
    | .ok p => .ok (i, p)
    | .err _ => caLoop P e hash us (i + 1)
    | .panic => .panic

/-- "CACertHash" -/
def keyCA : Bytes := [67, 65, 67, 101, 114, 116, 72, 97, 115, 104]

/-- Storing the new map (client.go:79-83, 105-107). -/
def accept (sm : SignedMap) (c : Config) : Config × Res Unit Unit :=
  ({ c with map := some sm.config, lastSignDate := sm.signDate }, .ok ())

/-- The hash of the own certificate (client.go:87-91); nil if there is none. -/
def myHash (P : Prims) : Option Bytes → Res Unit Bytes
  | none => .ok []
  | some ca => cahash P ca

/-- Fetching the CA certificate (client.go:92-107). -/
def fetchCA (P : Prims) (e : Env) (srv : List Bytes) (hash : Bytes) (sm : SignedMap) (c : Config) : Config × Res Unit Unit :=
  match caLoop P e hash srv 0 with
  | .panic => (c, .panic)
  | .err _ => ({ c with caCert := none, curServer := srv.length }, .err ())
  | .ok (i, p) => accept sm { c with caCert := some p, curServer := i }

/-- The second half of `Update` (client.go:79-108). -/
def install (P : Prims) (e : Env) (srv : List Bytes) (sm : SignedMap) (c : Config) : Config × Res Unit Unit :=
  match sm.config.lookup keyCA with
  | none => accept sm c
  | some h => match unhex h with
    | none => (c, .err ())
    | some hb => match myHash P c.caCert with
      | .panic => (c, .panic)
      | .err _ => (c, .err ())
      | .ok my => if my = hb then accept sm c else fetchCA P e srv hb sm c

/-- The configuration that a server delivers, if it is acceptable (`getConfig`,
client.go:131-144). -/
def getConfig (P : Prims) (e : Env) (pub : Bytes) (last : UInt64) (u : Bytes) : Option SignedMap :=
  (e.cfg u).filter (certify P e.now last pub)

/-- `LastSignDate` as `Update` uses it (client.go:63-65). -/
def startDate (now last : UInt64) : UInt64 := if last = 0 then now - 82800 else last

/-- `Update` (client.go:48-109). If the current server is behind the end of the list no
server is asked, and the nil certificate is used. -/
def update (P : Prims) (e : Env) (c : Config) : Config × Res Unit Unit :=
  if e.servers = [] then (c, .err ()) else
  let c := { c with lastSignDate := startDate e.now c.lastSignDate }
  if e.servers.length ≤ c.curServer then (c, .panic) else
  match tryAll (getConfig P e c.publicKey c.lastSignDate) (e.servers.drop c.curServer) c.curServer with
  | none => ({ c with curServer := e.servers.length }, .err ())
  | some (i, sm) => install P e (e.servers.drop i ++ e.servers.take i) sm { c with curServer := 0 }

/-- A sequence of updates; the program ends at a panic. -/
def updates (P : Prims) : List Env → Config → Config × Bool
  | [], c => (c, true)
  | e :: es, c => match update P e c with
    | (c', .panic) => (c', false)
    | (c', _) => updates P es c'

end Verif.Conf

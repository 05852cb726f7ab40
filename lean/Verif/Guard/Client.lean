/-
Package serviceguard/client: the cache of the wallet store, the verification keys of the
client, and the verification and receipt of tokens.

The state of the client is its online flag, its key pool, its wallet database and the cache of
the wallet store. Servers are arguments. The blind signature of a token is a parameter.
-/
import Verif.Guard.KeyPool
import Verif.Guard.Store

namespace Verif.Guard.Client
open Verif.Asn1 Verif.Util
open Verif.Mix (fix32 fix64 unhex)
open Verif.Guard.Store (Db)
open Verif.Guard.KeyPool (Pool PubKey Source)

/-! ### walletstore/types.go: CacheData -/

/-- `CacheData` (types.go:148-152); `none` is nil. -/
structure Cache where
  authToken : Option Bytes
  tries : Int
  verifyKeys : List Bytes
  deriving DecidableEq, Repr

/-- `new(CacheData)`. -/
def Cache.empty : Cache := ⟨none, 0, []⟩

/-- A field of type [][]byte: a SEQUENCE of OCTET STRINGs. -/
def eList (l : List Bytes) : Bytes := tlv 48 (l.flatMap eBytes)

/-- The loop of asn1's parseSequenceOf, with at most `n` elements. -/
def fItems : Nat → Bytes → Option (List Bytes)
  | _, [] => some []
  | 0, _ => none
  | n + 1, b => (fBytes b).bind fun (x, r) => (fItems n r).map (x :: ·)

def fList (b : Bytes) : Option (List Bytes × Bytes) :=
  (readTLV 48 b).bind fun (c, r) => (fItems c.length c).map (·, r)

/-- `CacheData.Marshal` (types.go:162-182). -/
def Cache.marshal (c : Cache) : Bytes :=
  Base64.encode (tlv 48 (eBytes (c.authToken.getD []) ++ (eInt c.tries ++ eList c.verifyKeys)))

/-- `CacheData.Unmarshal` (types.go:185-209) into a new value. -/
def Cache.unmarshal (d : Bytes) : Option Cache :=
  (Base64.decode d).bind fun d => (readTLV 48 d).bind fun (b, _) =>
  (fBytes b).bind fun (a, b) => (fInt64 b).bind fun (t, b) => (fList b).bind fun (l, _) =>
  some ⟨some a, t, l.map fix32⟩

/-! ### walletstore/store.go: the cache -/

/-- The row CONFIGCACHE of walletState, and the cache in memory. -/
structure CacheStore where
  row : Option Bytes
  cache : Option Cache
  deriving DecidableEq, Repr

/-- `Row.Scan` into `n` variables: an error if there is no row, or if it has another number of
columns. -/
def scan (n : Nat) : Option (List Bytes) → Option (List Bytes)
  | none => none
  | some cols => if cols.length = n then some cols else none

/-- "CONFIGCACHE". -/
def cacheKey : Bytes := [67, 79, 78, 70, 73, 71, 67, 65, 67, 72, 69]

/-- `getStateQuery` (store.go:61) for the cache: two columns. -/
def CacheStore.query (s : CacheStore) : Option (List Bytes) := s.row.map fun d => [cacheKey, d]

/-- `writeCache` (store.go:308-320). -/
def CacheStore.write (s : CacheStore) : CacheStore := { s with row := some (s.cache.getD .empty).marshal }

/-- `readCache` (store.go:323-336): scans the row into one variable. -/
def CacheStore.read (s : CacheStore) : CacheStore :=
  match scan 1 s.query with
  | some [d] => match Cache.unmarshal d with
    | some c => { s with cache := some c }
    | none => s
  | _ => s

/-- `SetVerifyKeys` (store.go:339-347). -/
def CacheStore.setVerifyKeys (s : CacheStore) (l : List Bytes) : CacheStore :=
  CacheStore.write { s with cache := some { s.cache.getD .empty with verifyKeys := l } }

/-- The cache is read if it is not in memory (store.go:351-356, 381-386). -/
def CacheStore.load (s : CacheStore) : CacheStore :=
  match s.cache with
  | none => s.read
  | some _ => s

/-- `GetVerifyKeys` (store.go:350-365). -/
def CacheStore.getVerifyKeys (s : CacheStore) : CacheStore × List Bytes :=
  let c := s.load.cache.getD .empty
  ({ s.load with cache := some c }, c.verifyKeys)

/-- `SetAuthToken` (store.go:368-377). -/
def CacheStore.setAuthToken (s : CacheStore) (t : Option Bytes) (tries : Int) : CacheStore :=
  CacheStore.write { s with cache := some { s.cache.getD .empty with authToken := t, tries := tries } }

/-- `GetAuthToken` (store.go:380-392). -/
def CacheStore.getAuthToken (s : CacheStore) : CacheStore × (Option Bytes × Int) :=
  (s.load, match s.load.cache with | none => (none, 0) | some c => (c.authToken, c.tries))

/-- Opening the database in a new process. -/
def CacheStore.reopen (s : CacheStore) : CacheStore := { s with cache := none }

/-- One use of the cache. -/
inductive COp
  | setVerifyKeys (l : List Bytes)
  | setAuthToken (t : Option Bytes) (tries : Int)
  | getVerifyKeys
  | getAuthToken
  | reopen

def cstep (s : CacheStore) : COp → CacheStore
  | .setVerifyKeys l => s.setVerifyKeys l
  | .setAuthToken t n => s.setAuthToken t n
  | .getVerifyKeys => s.getVerifyKeys.1
  | .getAuthToken => s.getAuthToken.1
  | .reopen => s.reopen

def crun (s : CacheStore) (ops : List COp) : CacheStore := ops.foldl cstep s

/-! ### client/clientlib.go -/

/-- `Client` (clientlib.go:51-62). -/
structure Client where
  online : Bool
  walletKey : Bytes
  pool : Pool
  db : Db
  cache : CacheStore

/-- `New` (clientlib.go:65-83) with the stored keys: a new pool, which loads the keys. -/
def Client.new (P : Prims) (utf8 : Bytes → Bool) (now : Int) (stored : List Bytes) (walletKey : Bytes) (db : Db) (row : Option Bytes) : Client :=
  ⟨false, walletKey, (Pool.new ⟨[], 2592000, none⟩).loadAll P utf8 now stored, db, ⟨row, none⟩⟩

/-- Adding keys to the pool (clientlib.go:146-148). -/
def addKeys (p : Pool) (l : List Bytes) : Pool := l.foldl Pool.addVerifyKey p

/-- `GetVerifyKeys` (clientlib.go:125-150) with the answer of the key lookup service. -/
def Client.getVerifyKeys (c : Client) (server : Option (List Bytes)) : Client :=
  match c.online, server with
  | true, some l => { c with cache := c.cache.setVerifyKeys l, pool := addKeys c.pool l }
  | _, _ => { c with cache := c.cache.getVerifyKeys.1, pool := addKeys c.pool c.cache.getVerifyKeys.2 }

/-- `GoOnline` (clientlib.go:91-94). -/
def Client.goOnline (c : Client) (server : Option (List Bytes)) : Client := { c.getVerifyKeys server with online := true }

/-- `GoOffline` (clientlib.go:98-102), without the runner. -/
def Client.goOffline (c : Client) : Client := { c with online := false }

/-! ### client/verify.go, client/receive.go -/

/-- The errors of the client (errors.go:46-78). -/
inductive E
  | retry | offline | final | fatal
  deriving DecidableEq, Repr

/-- The answer of the key lookup service: a key, or an error, which may be fatal. -/
inductive Lookup
  | key (d : Bytes)
  | fail (fatal : Bool)

/-- What verification and receipt depend on: the time, storages of the pool, the lookup service,
and the blind signature scheme: does the signature verify for the point and the message? -/
structure Env where
  now : Int
  utf8 : Bytes → Bool
  sources : List Source
  service : Bytes → Lookup
  blindVerify : Nat × Nat → Bytes × Bytes × Bytes × Bytes → Bytes → Bool

/-- `getPubKey` (verify.go:60-90). -/
def Client.getPubKey (P : Prims) (env : Env) (c : Client) (id : Bytes) : Client × Res E PubKey :=
  match c.pool.lookupFetch P env.utf8 env.now id env.sources with
  | (p, .ok k) => ({ c with pool := p }, .ok k)
  | (p, .error .notFound) =>
    if c.online then
      match env.service id with
      | .fail f => ({ c with pool := p }, .err (if f then .final else .retry))
      | .key d => match PubKey.unmarshal env.utf8 d with
        | none => ({ c with pool := p }, .err .retry)
        | some k =>
          let r := p.loadKey P env.now k
          ({ c with pool := r.1 }, if KeyPool.usable r.2 then .ok k else .err .fatal)
    else ({ c with pool := p }, .err .offline)
  | (p, .error _) => ({ c with pool := p }, .err .fatal)

/-- `Verify` (verify.go:17-56) after the key is known. -/
def checkToken (P : Prims) (env : Env) (input : Bytes) (t : Token) (k : PubKey) : Res E Entry :=
  if k.expire < env.now then .err .final
  else if env.blindVerify (k.x, k.y) t.signature (t.hash P) then
    .ok ⟨t.hash P, input, none, t.properties.2, none, false, false, k.usage, k.expire, none, none, none, none⟩
  else .err .final

/-- `Verify` (verify.go:17-56). -/
def Client.verify (P : Prims) (env : Env) (c : Client) (input : Bytes) : Client × Res E Entry :=
  match Token.unmarshal input with
  | none => (c, .err .fatal)
  | some t => match c.getPubKey P env t.properties.1 with
    | (c', .ok k) => (c', checkToken P env input t k)
    | (c', .err e) => (c', .err e)
    | (c', .panic) => (c', .panic)

/-- `splitKey` (clientlib.go:117-121): the public part. -/
def Client.pubKey (c : Client) : Bytes := c.walletKey.drop 32

/-- `ReceiveToken` (receive.go:9-30) after verification. The owner of the token is dereferenced
without a check. Errors of `SetToken` are ignored. -/
def Client.store (c : Client) (usage : Bytes) (e : Entry) : Client × Res E Unit :=
  if e.usage ≠ usage then (c, .err .final)
  else match e.ownerPub with
    | none => (c, .panic)
    | some o =>
      if o ≠ c.pubKey then (c, .err .final)
      else match c.db.getToken e.hash (-1) with
        | .ok _ => (c, .err .final)
        | _ => match c.db.setToken e with
          | .ok d => ({ c with db := d }, .ok ())
          | .err _ => (c, .ok ())
          | .panic => (c, .panic)

/-- `ReceiveToken` (receive.go:9-30). -/
def Client.receive (P : Prims) (env : Env) (c : Client) (usage input : Bytes) : Client × Res E Unit :=
  match c.verify P env input with
  | (c', .ok e) => c'.store usage e
  | (c', .err e) => (c', .err e)
  | (c', .panic) => (c', .panic)

end Verif.Guard.Client

/-
Packages serviceguard/common/signkeys and serviceguard/common/keypool: the keys tokens are
signed with, and the pool that holds them.

Coordinates of points are natural numbers (big.Int, never negative here). The elliptic curve
is not modelled: the point of a generated key is an argument. The pool is modelled without its
mutex; every operation takes it (Lookup for reading only, although it may write the map).
-/
import Verif.Guard.Token

namespace Verif.Guard.KeyPool
open Verif.Asn1 Verif.Util
open Verif.Mix (fix32 fix64)
open Verif.Conf (be64)

/-! ### signkeys/keys.go -/

/-- `PublicKey` (keys.go:64-71). -/
structure PubKey where
  keyID : Bytes
  x : Nat
  y : Nat
  expire : Int
  usage : Bytes
  signer : Bytes
  signature : Bytes
  deriving DecidableEq, Repr

/-- `CalcKeyID` (keys.go:128-138): the bytes that are hashed. -/
def PubKey.image (k : PubKey) : Bytes :=
  base256 k.x ++ (base256 k.y ++ (be64 (k.expire % 2 ^ 64).toNat ++ ((58 :: (k.usage ++ [58])) ++ k.signer)))

/-- `CalcKeyID` (keys.go:128-138). -/
def PubKey.calc (P : Prims) (k : PubKey) : Bytes := P.sha256 k.image

/-- `Verify` (keys.go:119-125). -/
def PubKey.verify (P : Prims) (k : PubKey) (signer : Bytes) : Bool :=
  if k.calc P ≠ k.keyID then false else P.verify signer (k.calc P) k.signature

/-- `big.Int.SetBytes`. -/
def setBytes (b : Bytes) : Nat := b.foldl (fun a c => a * 256 + c.toNat) 0

/-- `Marshal` (keys.go:85-96). `utf8` is utf8.Valid. -/
def PubKey.marshal (utf8 : Bytes → Bool) (k : PubKey) : Option Bytes :=
  (eStr utf8 k.usage).map fun u =>
    tlv 48 (eBytes k.keyID ++ (eBytes (base256 k.x) ++ (eBytes (base256 k.y) ++ (eInt k.expire ++ (u ++ (eBytes k.signer ++ eBytes k.signature))))))

/-- `Unmarshal` (keys.go:99-116). -/
def PubKey.unmarshal (utf8 : Bytes → Bool) (d : Bytes) : Option PubKey :=
  (readTLV 48 d).bind fun (b, _) =>
  (fBytes b).bind fun (i, b) => (fBytes b).bind fun (x, b) => (fBytes b).bind fun (y, b) => (fInt64 b).bind fun (e, b) =>
  (fStr utf8 b).bind fun (u, b) => (fBytes b).bind fun (s, b) => (fBytes b).bind fun (g, _) =>
  some ⟨fix32 i, setBytes x, setBytes y, e, u, fix32 s, fix64 g⟩

/-- `KeyGenerator` (keys.go:40-46): usage, expiry duration and, if it can sign, its key pair. -/
structure Generator where
  usage : Bytes
  expireTime : Int
  keys : Option (Bytes × Bytes)

/-- `GenKey` (keys.go:141-163) with the point of the new key. -/
def genKey (P : Prims) (usage : Bytes) (expireTime : Int) (pub priv : Bytes) (now : Int) (x y : Nat) : PubKey :=
  let k : PubKey := ⟨[], x, y, now + expireTime, usage, pub, []⟩
  { k with keyID := k.calc P, signature := P.sign priv (k.calc P) }

/-! ### keypool/generator.go -/

/-- The errors (generator.go:17-30). `fetch` is an error of a callback or of decoding. -/
inductive Err
  | notFound | noGenerator | badUsage | expired | badSigner | exists | fetch
  deriving DecidableEq, Repr

/-- `KeyPool` (generator.go:45-63). Maps are lists; a new entry comes first. -/
structure Pool where
  gen : Generator
  keys : List (Bytes × PubKey)
  verifyKeys : List Bytes
  current : Option PubKey
  previous : Option PubKey

/-- `New` (generator.go:66-73). -/
def Pool.new (g : Generator) : Pool := ⟨g, [], [], none, none⟩

/-- `AddVerifyKey` (generator.go:76-80). -/
def Pool.addVerifyKey (p : Pool) (k : Bytes) : Pool := { p with verifyKeys := k :: p.verifyKeys }

/-- `HasVerifyKey` (generator.go:94-101). -/
def Pool.hasVerifyKey (p : Pool) (k : Bytes) : Bool := p.verifyKeys.contains k

/-- The map of keys. -/
def Pool.find (p : Pool) (id : Bytes) : Option PubKey := (p.keys.find? fun r => r.1 == id).map Prod.snd

/-- `loadKey` (generator.go:203-225): the pool, and the id or the error. The error `exists` comes
with the id as well. -/
def Pool.loadKey (P : Prims) (p : Pool) (now : Int) (k : PubKey) : Pool × Except Err Bytes :=
  if p.gen.usage ≠ [] ∧ k.usage ≠ p.gen.usage then (p, .error .badUsage)
  else if k.expire < now then (p, .error .expired)
  else if p.hasVerifyKey k.signer = false then (p, .error .badSigner)
  else if k.verify P k.signer = false then (p, .error .badSigner)
  else match p.find k.keyID with
    | some _ => (p, .error .exists)
    | none => ({ p with keys := (k.keyID, k) :: p.keys }, .ok k.keyID)

/-- `lookup` (generator.go:130-138). -/
def Pool.lookup (p : Pool) (now : Int) (id : Bytes) : Except Err PubKey :=
  match p.find id with
  | some k => if k.expire > now then .ok k else .error .expired
  | none => .error .notFound

/-- Whether a result of `loadKey` comes with an id: success or `exists`. -/
def usable : Except Err Bytes → Bool
  | .ok _ => true
  | .error .exists => true
  | .error _ => false

/-- What a storage does when it is asked for a key: the database and other storages answer with
bytes or an error; the key lookup service (keylookup/impl.go:91-106) loads the key into the pool
first, and passes on the error of that. -/
inductive Source
  | storage (answer : Option Bytes)
  | service (answer : Option Bytes)

/-- One callback. -/
def Source.fetch (P : Prims) (utf8 : Bytes → Bool) (now : Int) (p : Pool) : Source → Pool × Option Bytes
  | .storage a => (p, a)
  | .service none => (p, none)
  | .service (some d) => match PubKey.unmarshal utf8 d with
    | none => (p, none)
    | some k =>
      let (p', r) := p.loadKey P now k
      (p', if usable r then some d else none)

/-- The chain of callbacks `RegisterStorage` builds (generator.go:252-264): the first answer
counts. -/
def fetchAll (P : Prims) (utf8 : Bytes → Bool) (now : Int) (p : Pool) : List Source → Pool × Option Bytes
  | [] => (p, none)
  | s :: ss => match s.fetch P utf8 now p with
    | (p', some d) => (p', some d)
    | (p', none) => fetchAll P utf8 now p' ss

/-- The part of `Lookup` after a key was fetched (generator.go:114-126). -/
def Pool.take (P : Prims) (utf8 : Bytes → Bool) (p : Pool) (now : Int) (id d : Bytes) : Pool × Except Err PubKey :=
  match PubKey.unmarshal utf8 d with
  | none => (p, .error .fetch)
  | some k =>
    let (p', r) := p.loadKey P now k
    (p', if usable r then if k.keyID = id then .ok k else .error .notFound else .error .notFound)

/-- `Lookup` (generator.go:104-127). Without storages there is no callback. -/
def Pool.lookupFetch (P : Prims) (utf8 : Bytes → Bool) (p : Pool) (now : Int) (id : Bytes) (sources : List Source) : Pool × Except Err PubKey :=
  match p.lookup now id with
  | .error .notFound =>
    if sources.isEmpty then (p, .error .notFound)
    else match fetchAll P utf8 now p sources with
      | (p', none) => (p', .error .fetch)
      | (p', some d) => p'.take P utf8 now id d
  | r => (p, r)

/-- Whether `Current` makes a new key (generator.go:161-170). Go divides towards zero. -/
def Pool.needsKey (p : Pool) (now : Int) : Bool :=
  match p.current with
  | none => true
  | some k => k.expire < now - p.gen.expireTime.tdiv 2

/-- `Current` (generator.go:157-188). `write` says whether the key could be marshalled and
written. -/
def Pool.currentKey (P : Prims) (p : Pool) (now : Int) (x y : Nat) (write : Bool) : Pool × Except Err (PubKey × Option PubKey) :=
  match p.gen.keys with
  | none => (p, .error .noGenerator)
  | some (pub, priv) =>
    if p.needsKey now then
      if write then
        let k := genKey P p.gen.usage p.gen.expireTime pub priv now x y
        let prev := match p.current with | some c => some c | none => p.previous
        ({ p with keys := (k.keyID, k) :: p.keys, current := some k, previous := prev }, .ok (k, prev))
      else (p, .error .fetch)
    else match p.current with
      | some c => (p, .ok (c, p.previous))
      | none => (p, .error .noGenerator)

/-- `Load` with keydir or keydb (keydir/filestorage.go:41-59, keydb/dbstorage.go:loadFunc): loads
keys until one cannot be decoded; errors of loading are ignored. -/
def Pool.loadAll (P : Prims) (utf8 : Bytes → Bool) (now : Int) (p : Pool) : List Bytes → Pool
  | [] => p
  | d :: ds => match PubKey.unmarshal utf8 d with
    | none => p
    | some k => Pool.loadAll P utf8 now (p.loadKey P now k).1 ds

/-! ### histories -/

/-- One use of the pool. -/
inductive Op
  | addVerifyKey (k : Bytes)
  | load (now : Int) (k : PubKey)
  | loadAll (now : Int) (ds : List Bytes)
  | lookup (now : Int) (id : Bytes) (sources : List Source)
  | current (now : Int) (x y : Nat) (write : Bool)

def step (P : Prims) (utf8 : Bytes → Bool) (p : Pool) : Op → Pool
  | .addVerifyKey k => p.addVerifyKey k
  | .load now k => (p.loadKey P now k).1
  | .loadAll now ds => p.loadAll P utf8 now ds
  | .lookup now id s => (p.lookupFetch P utf8 now id s).1
  | .current now x y w => (p.currentKey P now x y w).1

def run (P : Prims) (utf8 : Bytes → Bool) (p : Pool) (ops : List Op) : Pool := ops.foldl (step P utf8) p

end Verif.Guard.KeyPool

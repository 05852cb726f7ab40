/-
Package serviceguard: tokens, signed packets, wallet authentication tokens, and the encoding
of wallet entries for the database.

ASN.1 is modelled in `Verif.Asn1`, Base64 in `Verif.Base64`. SHA-256 and Ed25519 are
parameters.
-/
import Verif.Asn1
import Verif.Util.Base64
import Verif.Util.Model
import Verif.Mix.Client
import Verif.Conf.Props

namespace Verif.Guard
open Verif.Asn1 Verif.Util
open Verif.Mix (unhex unhexDigit fix32 fix64 atoi)
open Verif.Conf (be64 be64_length be64_inj)

/-- Hash and signatures. -/
structure Prims where
  sha256 : Bytes → Bytes
  sign : Bytes → Bytes → Bytes
  verify : Bytes → Bytes → Bytes → Bool

/-! ### common/token/types.go -/

/-- `Token` (types.go:34-44). -/
structure Token where
  keyID : Bytes
  flag : Bool
  nonce : Bytes
  owner : Bytes
  pointRX : Bytes
  pointRY : Bytes
  scalarS : Bytes
  scalarR : Bytes
  deriving DecidableEq, Repr

/-- `Hash` (types.go:72-84): the bytes that are hashed. -/
def Token.hashed (t : Token) : Bytes := t.keyID ++ ((if t.flag then [1] else [0]) ++ (t.nonce ++ t.owner))

/-- `Hash` (types.go:72-84). -/
def Token.hash (P : Prims) (t : Token) : Bytes := P.sha256 t.hashed

/-- `Properties` (types.go:87-97). -/
def Token.properties (t : Token) : Bytes × Option Bytes := (fix32 t.keyID, if t.flag then some (fix32 t.owner) else none)

/-- The signature in the token, `GetSignature` (types.go:126-132), as the four numbers. -/
def Token.signature (t : Token) : Bytes × Bytes × Bytes × Bytes := (t.pointRX, t.pointRY, t.scalarR, t.scalarS)

/-- `Marshal` (types.go:105-107). -/
def Token.marshal (t : Token) : Bytes :=
  tlv 48 (eBytes t.keyID ++ (eBool t.flag ++ (eBytes t.nonce ++ (eBytes t.owner ++
    (eBytes t.pointRX ++ (eBytes t.pointRY ++ (eBytes t.scalarS ++ eBytes t.scalarR)))))))

/-- `Unmarshal` (types.go:110-117). -/
def Token.unmarshal (d : Bytes) : Option Token :=
  (readTLV 48 d).bind fun (b, _) =>
  (fBytes b).bind fun (k, b) => (fBool b).bind fun (f, b) => (fBytes b).bind fun (n, b) => (fBytes b).bind fun (o, b) =>
  (fBytes b).bind fun (x, b) => (fBytes b).bind fun (y, b) => (fBytes b).bind fun (s, b) => (fBytes b).bind fun (r, _) =>
  some ⟨k, f, n, o, x, y, s, r⟩

/-! ### common/types/types.go -/

/-- The packet that reissues a token (types.go:73-79). -/
structure ReissuePacket where
  callType : Int
  token : Bytes
  blindToken : Bytes
  params : Bytes
  signature : Bytes

/-- The packet that spends a token (types.go:173-177). -/
structure SpendPacket where
  callType : Int
  token : Bytes
  signature : Bytes

/-- The call type in eight bytes, of which the first four are used (types.go:106-107). -/
def callBytes (c : Int) : Bytes := be32 (UInt32.ofNat (c % 2 ^ 32).toNat) ++ [0, 0, 0, 0]

/-- `Image` (types.go:105-116). -/
def ReissuePacket.image (P : Prims) (p : ReissuePacket) : Bytes :=
  P.sha256 (callBytes p.callType ++ p.token) ++ (P.sha256 p.blindToken ++ P.sha256 p.params)

/-- `Image` (types.go:180-185). -/
def SpendPacket.image (P : Prims) (p : SpendPacket) : Bytes := P.sha256 (callBytes p.callType ++ p.token)

/-- `Sign` (types.go:119-128, 188-195) of a packet with this image. -/
def signImage (P : Prims) (priv : Option Bytes) (image : Bytes) : Bytes :=
  match priv with
  | none => [0]
  | some k => P.sign k image

/-- `Verify` (types.go:131-143, 198-210): whether there is no error. -/
def verifyImage (P : Prims) (pub : Option Bytes) (image sig : Bytes) : Bool :=
  match pub with
  | none => sig.length == 1
  | some k => P.verify k image sig

/-! ### common/walletauth/walletauth.go -/

/-- `CreateToken` (walletauth.go:40-50). -/
def createAuth (P : Prims) (pub priv random : Bytes) (now counter : Nat) : Bytes :=
  let b := pub ++ (random ++ (be64 (now / 3600) ++ be64 counter))
  b ++ P.sign priv b

/-- `binary.BigEndian.Uint64`. -/
def fromBe64 (b : Bytes) : Nat := b.foldl (fun a c => a * 256 + c.toNat) 0

/-- `CheckToken` (walletauth.go:54-70). -/
def checkAuth (P : Prims) (t : Bytes) : Option (Bytes × Nat × Nat) :=
  if t.length ≠ 144 then none
  else if P.verify (t.take 32) (t.take 80) (t.drop 80) then
    some (t.take 32, fromBe64 ((t.drop 64).take 8), fromBe64 ((t.drop 72).take 8))
  else none

/-! ### client/walletstore.go and client/walletstore/types.go -/

/-- `TokenEntry` (walletstore.go:34-47); `none` is nil. -/
structure Entry where
  hash : Bytes
  token : Bytes
  params : Option Bytes
  ownerPub : Option Bytes
  ownerPriv : Option Bytes
  renewable : Bool
  canReissue : Bool
  usage : Bytes
  expire : Int
  serverPacket : Option Bytes
  blinding : Option Bytes
  newOwnerPub : Option Bytes
  newOwnerPriv : Option Bytes
  deriving DecidableEq, Repr

/-- `TokenEntryDBGlobal` (types.go:17-30). -/
structure Global where
  hash : Bytes
  token : Bytes
  ownerPub : Bytes
  ownerPriv : Bytes
  renewable : Bool
  canReissue : Bool
  usage : Bytes
  expire : Int
  ownedSelf : Bool
  hasParams : Bool
  hasState : Bool
  deriving DecidableEq, Repr

/-- ASN.1 of `TokenEntryDBState` (types.go:33-39); nil is an empty octet string. -/
def stateBytes (e : Entry) : Bytes :=
  tlv 48 (eBytes (e.params.getD []) ++ (eBytes (e.serverPacket.getD []) ++ (eBytes (e.blinding.getD []) ++
    (eBytes (e.newOwnerPub.getD []) ++ eBytes (e.newOwnerPriv.getD [])))))

/-- HasState (types.go:59-61). -/
def Entry.hasState (e : Entry) : Bool := e.serverPacket.isSome || e.blinding.isSome || e.newOwnerPriv.isSome

/-- `encodeToken` (types.go:42-84): panics without an owner. -/
def encodeToken (e : Entry) : Res Unit (Global × Bytes) :=
  match e.ownerPub with
  | none => .panic
  | some pub => .ok
    (⟨hex e.hash, Base64.encode e.token, Base64.encode pub, Base64.encode (e.ownerPriv.getD []), e.renewable, e.canReissue,
      e.usage, e.expire, e.ownerPriv.isSome, e.params.isSome, e.hasState⟩,
     if e.hasState || e.params.isSome then Base64.encode (stateBytes e) else [])

/-- A value of the state is only used if it is not empty (types.go:122-130). -/
def nonEmpty (b : Bytes) : Option Bytes := if b = [] then none else some b
/-- A key of the state is only used if it has the right size (types.go:131-138). -/
def sized (n : Nat) (b : Bytes) : Option Bytes := if b.length = n then some b else none

/-- The state part of `decodeToken` (types.go:111-139). -/
def decodeState (g : Global) (state : Bytes) (e : Entry) : Option Entry :=
  if g.hasState || g.hasParams then
    (Base64.decode state).bind fun m => (readTLV 48 m).bind fun (b, _) =>
    (fBytes b).bind fun (p, b) => (fBytes b).bind fun (s, b) => (fBytes b).bind fun (f, b) =>
    (fBytes b).bind fun (np, b) => (fBytes b).bind fun (ns, _) =>
    some { e with params := nonEmpty p, serverPacket := nonEmpty s, blinding := nonEmpty f,
                  newOwnerPub := sized 32 np, newOwnerPriv := sized 64 ns }
  else some e

/-- `decodeToken` (types.go:87-142). -/
def decodeToken (g : Global) (state : Bytes) : Option Entry :=
  (unhex g.hash).bind fun h => (Base64.decode g.ownerPub).bind fun pub => (Base64.decode g.token).bind fun t =>
  (if g.ownedSelf then (Base64.decode g.ownerPriv).map fun k => some (fix64 k) else some none).bind fun priv =>
  decodeState g state ⟨h, t, none, some (fix32 pub), priv, g.renewable, g.canReissue, g.usage, g.expire, none, none, none, none⟩

end Verif.Guard

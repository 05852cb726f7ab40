/-
The mix packages: client-mix-client message encryption (mix/mixcrypt), nym
addresses (mix/nymaddr) and mix address lists (mix/mixaddr).

Random numbers are arguments; the time is an argument. Curve25519, SHA-256,
HMAC-SHA-256, AES-GCM, the AES block cipher, LIONESS and utf8.Valid are
parameters (`Prims`); what is assumed of them is `Prims.Good`.
-/
import Verif.Asn1
import Verif.Cipher.Aes

namespace Verif.Mix
open Verif.Asn1

/-- The cryptographic functions used by the mix packages. -/
structure Prims where
  hash : Bytes → Bytes
  hmac : Bytes → Bytes → Bytes
  pub : Bytes → Bytes
  dh : Bytes → Bytes → Bytes
  /-- AES-GCM `Seal`: nonce, key, cleartext. -/
  gcmSeal : Bytes → Bytes → Bytes → Bytes
  gcmOpen : Bytes → Bytes → Bytes → Option Bytes
  lionEnc : Bytes → Bytes → Option Bytes
  lionDec : Bytes → Bytes → Option Bytes
  block : Cipher.Block
  utf8 : Bytes → Bool

/-- What is assumed of them: correctness of decryption, commutativity of
Diffie-Hellman and output lengths; nothing about secrecy. -/
structure Prims.Good (P : Prims) : Prop where
  hash_len : ∀ m, (P.hash m).length = 32
  hmac_len : ∀ k m, (P.hmac k m).length = 32
  pub_len : ∀ s, (P.pub s).length = 32
  dh_comm : ∀ a b, P.dh a (P.pub b) = P.dh b (P.pub a)
  gcm_len : ∀ n k m, (P.gcmSeal n k m).length = m.length + 16
  gcm_open : ∀ n k m, P.gcmOpen n k (P.gcmSeal n k m) = some m
  lion_dec : ∀ k m c, P.lionEnc k m = some c → P.lionDec k c = some m
  lion_len : ∀ k m c, P.lionEnc k m = some c → c.length = m.length
  block : P.block.Good

/-- Errors of the packages (mixcrypt/common.go:27-36, nymaddr/addr.go:23-34, and
those of asn1, GCM and LIONESS). -/
inductive Err where
  | noKeys | tooShort | size | badSystem
  | noMix | noKey | expired | hmac | badKey
  | asn1 | gcm | lioness
  deriving DecidableEq, Repr

/-- `copy(x[:], b)` into a fresh 32 byte array. -/
def fix32 (b : Bytes) : Bytes := b.take 32 ++ List.replicate (32 - b.length) 0

/-- Turn a parser's answer into a result. -/
def ofOpt {α : Type} (e : Err) : Option α → Res Err α
  | some a => .ok a
  | none => .err e

/-! ### mixcrypt/envelope.go -/

/-- `KeyFunc` (mixcrypt/common.go:57-58, nymaddr/addr.go:44-45). -/
abbrev KeyFunc := Bytes → Option Bytes

/-- `ExpandSecret` (envelope.go:47-56). -/
def expandSecret (P : Prims) (nonce key : Bytes) : Bytes := fix32 (P.hmac key nonce)

/-- `CalculateSharedSecret` with both keys present (envelope.go:27-45). -/
def sharedSecret (P : Prims) (peer mine nonce : Bytes) : Bytes := expandSecret P nonce (P.dh mine peer)

/-- `GCMEncrypt` (envelope.go:80-87); the first 12 bytes of the nonce are used. -/
def gcmEncrypt (P : Prims) (nonce key d : Bytes) : Bytes := P.gcmSeal (nonce.take 12) key d

/-- `GCMDecrypt` (envelope.go:67-78). -/
def gcmDecrypt (P : Prims) (nonce key d : Bytes) : Res Err Bytes := ofOpt .gcm (P.gcmOpen (nonce.take 12) key d)

/-- `Encrypt` (envelope.go:89-114): `mine` is the given or random private key, `nonce`
the random nonce. -/
def encrypt (P : Prims) (peer : Option Bytes) (mine nonce clear : Bytes) : Res Err Bytes :=
  match peer with
  | none => .err .noKeys
  | some peer => .ok (peer ++ P.pub mine ++ nonce ++ gcmEncrypt P nonce (sharedSecret P peer mine nonce) clear)

/-- `Decrypt` (envelope.go:116-134). -/
def decrypt (P : Prims) (look : KeyFunc) (enc : Bytes) : Res Err Bytes :=
  if enc.length ≤ 96 then .err .tooShort else
  match look (enc.take 32) with
  | none => .err .noKeys
  | some mine =>
    gcmDecrypt P ((enc.drop 64).take 32) (sharedSecret P ((enc.drop 32).take 32) mine ((enc.drop 64).take 32)) (enc.drop 96)

/-! ### mixcrypt/clientmix.go: the header -/

/-- `ClientMixHeader` (clientmix.go:16-23). `none` is a nil slice. -/
structure Hdr where
  msgType : Int
  minDelay : Int
  maxDelay : Int
  token : Option Bytes
  address : Bytes
  revokeID : Option Bytes
  deriving DecidableEq, Repr

/-- `MessageTypeForward`, `MessageTypeRelay` (common.go:50-55). -/
def typeForward : Int := 1
def typeRelay : Int := 2

/-- What Marshal puts for a nil token (clientmix.go:42-44). -/
def Hdr.wireToken (h : Hdr) : Bytes := h.token.getD [0]

/-- What Marshal puts for the RevokeID (clientmix.go:45-47). -/
def Hdr.wireRevoke (h : Hdr) : Bytes := if h.msgType = typeForward then [0] else h.revokeID.getD [0]

/-- The ASN.1 part of `Marshal` (clientmix.go:48). -/
def Hdr.asn1 (h : Hdr) : Bytes :=
  tlv 48 (eInt h.msgType ++ (eInt h.minDelay ++ (eInt h.maxDelay ++ (eBytes h.wireToken ++ (eBytes h.address ++ eBytes h.wireRevoke)))))

/-- `Marshal` (clientmix.go:40-56); the length is cut to 16 bits. -/
def Hdr.marshal (h : Hdr) : Bytes := be16 (UInt16.ofNat h.asn1.length) ++ h.asn1

/-- asn1.Unmarshal into a `ClientMixHeader` (token and revokeID as on the wire). -/
def Hdr.parse (d : Bytes) : Option Hdr := do
  let (c, _) ← readTLV 48 d
  let (t, c) ← fInt32 c
  let (mi, c) ← fInt32 c
  let (ma, c) ← fInt32 c
  let (tok, c) ← fBytes c
  let (a, c) ← fBytes c
  let (r, _) ← fBytes c
  return { msgType := t, minDelay := mi, maxDelay := ma, token := some tok, address := a, revokeID := some r }

/-- The end of `Unmarshal` (clientmix.go:74-79): indexing an empty token or an empty
RevokeID panics. -/
def Hdr.fixNil (h : Hdr) : Res Err Hdr :=
  if h.token = some [] then .panic else
  let h := if h.token = some [0] then { h with token := none } else h
  if h.revokeID = some [] then .panic else
  .ok (if h.revokeID = some [0] ∨ h.msgType = typeForward then { h with revokeID := none } else h)

/-- The header length as `Unmarshal` computes it in uint16 (clientmix.go:66). -/
def hdrLen (d : Bytes) : Nat := ((d.getD 0 0).toNat * 256 + (d.getD 1 0).toNat + 2) % 65536

/-- `Unmarshal` (clientmix.go:58-81): header and header length. -/
def Hdr.unmarshal (d : Bytes) : Res Err (Hdr × Nat) :=
  if d.length < 3 then .err .tooShort
  else if d.length < hdrLen d then .err .tooShort
  else if hdrLen d < 2 then .panic
  else ofOpt .asn1 (Hdr.parse ((d.take (hdrLen d)).drop 2)) >>= fun h =>
    h.fixNil >>= fun h => .ok (h, hdrLen d)

/-! ### mixaddr/addrlist.go -/

/-- `mixaddr.Address` (addrlist.go:21-27). -/
structure MAddr where
  pubkey : Bytes
  expire : Int
  address : Bytes
  tokenKey : Bytes
  deriving DecidableEq, Repr

/-- `AddressList.Expire` (addrlist.go:100-112); `clock` is the current time. -/
def expireList (clock now : Int) (l : List MAddr) : List MAddr :=
  l.filter fun e => decide ((if now = 0 then clock else now) < e.expire)

/-- `AddressList.Append` (addrlist.go:114-126). -/
def appendList (clock : Int) (l adr : List MAddr) : List MAddr :=
  l ++ adr.filter fun a => decide (clock < a.expire)

/-- `AddressList.Rand` (addrlist.go:139-146): `r` is the random number. -/
def randAddr (r : Nat) (l : List MAddr) : Option MAddr := l[r % l.length]?

/-! ### nymaddr -/

/-- `Address` (nymaddr/addr.go:47-56). -/
structure NAddr where
  mixAddress : Bytes
  expire : Int
  singleUse : Bool
  tokenPubKey : Bytes
  mixPubKey : Bytes
  addressKey : Bytes
  privateData : Bytes
  deriving DecidableEq, Repr

/-- asn1.Marshal of an `Address`. -/
def NAddr.asn1 (a : NAddr) : Bytes :=
  tlv 48 (eBytes a.mixAddress ++ (eInt a.expire ++ (eBool a.singleUse ++ (eBytes a.tokenPubKey ++
    (eBytes a.mixPubKey ++ (eBytes a.addressKey ++ eBytes a.privateData))))))

/-- asn1.Unmarshal of an `Address`. -/
def NAddr.parse (d : Bytes) : Option NAddr := do
  let (c, _) ← readTLV 48 d
  let (ma, c) ← fBytes c
  let (e, c) ← fInt64 c
  let (s, c) ← fBool c
  let (t, c) ← fBytes c
  let (mp, c) ← fBytes c
  let (ak, c) ← fBytes c
  let (pd, _) ← fBytes c
  return { mixAddress := ma, expire := e, singleUse := s, tokenPubKey := t, mixPubKey := mp, addressKey := ak, privateData := pd }

/-- `AddressPrivate` (nymaddr/addr.go:58-70). -/
structure NPriv where
  system : Int
  address : Bytes
  expire : Int
  singleUse : Bool
  minDelay : Int
  maxDelay : Int
  nonce : Bytes
  receiverPub : Bytes
  encNym : Bytes
  hmacHead : Bytes
  deriving DecidableEq, Repr

/-- asn1.Marshal of an `AddressPrivate`. -/
def NPriv.asn1 (a : NPriv) : Bytes :=
  tlv 48 (eInt a.system ++ (eBytes a.address ++ (eInt a.expire ++ (eBool a.singleUse ++ (eInt a.minDelay ++
    (eInt a.maxDelay ++ (eBytes a.nonce ++ (eBytes a.receiverPub ++ (eBytes a.encNym ++ eBytes a.hmacHead)))))))))

/-- asn1.Unmarshal of an `AddressPrivate`. -/
def NPriv.parse (d : Bytes) : Option NPriv := do
  let (c, _) ← readTLV 48 d
  let (s, c) ← fInt32 c
  let (a, c) ← fBytes c
  let (e, c) ← fInt64 c
  let (su, c) ← fBool c
  let (mi, c) ← fInt32 c
  let (ma, c) ← fInt32 c
  let (n, c) ← fBytes c
  let (rp, c) ← fBytes c
  let (en, c) ← fBytes c
  let (hh, _) ← fBytes c
  return { system := s, address := a, expire := e, singleUse := su, minDelay := mi, maxDelay := ma,
           nonce := n, receiverPub := rp, encNym := en, hmacHead := hh }

/-- `RelayHeader` (nymaddr/addr.go:72-79). -/
structure RHdr where
  senderKey : Bytes
  nonce : Bytes
  receiverPub : Bytes
  encNym : Bytes
  hmacHead : Bytes
  deriving DecidableEq, Repr

/-- asn1.Marshal of a `RelayHeader`. -/
def RHdr.asn1 (a : RHdr) : Bytes :=
  tlv 48 (eBytes a.senderKey ++ (eBytes a.nonce ++ (eBytes a.receiverPub ++ (eBytes a.encNym ++ eBytes a.hmacHead))))

/-- asn1.Unmarshal of a `RelayHeader`. -/
def RHdr.parse (d : Bytes) : Option RHdr := do
  let (c, _) ← readTLV 48 d
  let (sk, c) ← fBytes c
  let (n, c) ← fBytes c
  let (rp, c) ← fBytes c
  let (en, c) ← fBytes c
  let (hh, _) ← fBytes c
  return { senderKey := sk, nonce := n, receiverPub := rp, encNym := en, hmacHead := hh }

/-- `AddressTemplate` (nymaddr/addr.go:81-92). -/
structure Template where
  secret : Bytes
  system : Int
  mixes : List MAddr
  expire : Int
  singleUse : Bool
  minDelay : Int
  maxDelay : Int

/-- `encryptNym` (nymaddr/crypt.go:12-23): at most 33 bytes are kept, the first byte is
the length modulo 33. -/
def encryptNym (P : Prims) (key nym : Bytes) : Bytes :=
  let nym := nym.take 33
  Cipher.ctrXor P.block key (List.replicate 16 0) 0
    (UInt8.ofNat (nym.length % 33) :: (nym ++ List.replicate (33 - nym.length) 0))

/-- The cut at the end of `decryptNym` (nymaddr/crypt.go:29-30). -/
def cutNym : Bytes → Res Err Bytes
  | [] => .panic
  | l :: d => if d.length < l.toNat then .panic else .ok (d.take l.toNat)

/-- `decryptNym` (nymaddr/crypt.go:25-31). -/
def decryptNym (P : Prims) (key enc : Bytes) : Res Err Bytes :=
  cutNym (Cipher.ctrXor P.block key (List.replicate 16 0) 0 enc)

/-- `genDetermKeys` (nymaddr/addr.go:287-293): the private key. -/
def determPriv (P : Prims) (t : Template) (nonce nym : Bytes) : Bytes := fix32 (P.hmac t.secret (nonce ++ nym))

/-- `genSymKey` (nymaddr/addr.go:295-297). -/
def symKey (P : Prims) (t : Template) (nonce rpub mailbox : Bytes) : Bytes := P.hmac t.secret (nonce ++ rpub ++ mailbox)

/-- `calcHmac` of the header parts (nymaddr/addr.go:194, 256, 278-285). -/
def headMac (P : Prims) (key nonce rpub encNym : Bytes) : Bytes := P.hmac key (nonce ++ rpub ++ encNym)

/-- `ParseAddress` (nymaddr/addr.go:112-123). -/
def parseAddress (clock : Int) (b : Bytes) : Res Err NAddr :=
  ofOpt .asn1 (NAddr.parse b) >>= fun a => if a.expire < clock then .err .expired else .ok a

/-- `GetMixData` (nymaddr/addr.go:125-151). -/
def getMixData (P : Prims) (look : KeyFunc) (a : NAddr) : Res Err NPriv :=
  match look (fix32 a.mixPubKey) with
  | none => .err .noKey
  | some priv =>
    ofOpt .lioness (P.lionDec (P.dh priv (fix32 a.addressKey)) a.privateData) >>= fun m =>
    ofOpt .asn1 (NPriv.parse m)

/-- `GetHeader` (nymaddr/addr.go:162-184): `eph` is the random private key; header and
secret. -/
def getHeader (P : Prims) (eph : Bytes) (a : NPriv) : Bytes × Bytes :=
  (RHdr.asn1 { senderKey := P.pub eph, nonce := a.nonce, receiverPub := a.receiverPub, encNym := a.encNym, hmacHead := a.hmacHead },
   P.dh eph (fix32 a.receiverPub))

/-- The check of the deterministic key and the shared secret at the end of `GetPrivate`
(nymaddr/addr.go:199-207). -/
def finishPrivate (P : Prims) (t : Template) (rh : RHdr) (nym : Bytes) : Res Err (Bytes × Bytes) :=
  if P.pub (determPriv P t rh.nonce nym) ≠ rh.receiverPub then .err .badKey
  else .ok (nym, P.dh (determPriv P t rh.nonce nym) (fix32 rh.senderKey))

/-- `GetPrivate` (nymaddr/addr.go:186-208): nym and secret. -/
def getPrivate (P : Prims) (t : Template) (header mailbox : Bytes) : Res Err (Bytes × Bytes) :=
  ofOpt .asn1 (RHdr.parse header) >>= fun rh =>
  let sk := symKey P t rh.nonce rh.receiverPub mailbox
  if rh.hmacHead ≠ headMac P sk rh.nonce rh.receiverPub rh.encNym then .err .hmac
  else decryptNym P sk rh.encNym >>= finishPrivate P t rh

/-- The private part made by `NewAddress` (nymaddr/addr.go:238-256). -/
def mkPriv (P : Prims) (t : Template) (mailbox nym nonce : Bytes) : NPriv :=
  let rpub := P.pub (determPriv P t nonce nym)
  let sk := symKey P t nonce rpub mailbox
  let enc := encryptNym P sk nym
  { system := t.system, address := mailbox, expire := t.expire, singleUse := t.singleUse,
    minDelay := t.minDelay, maxDelay := t.maxDelay, nonce := nonce, receiverPub := rpub, encNym := enc,
    hmacHead := headMac P sk nonce rpub enc }

/-- `NewAddress` (nymaddr/addr.go:210-276): `r` picks the mix, `eph` is the random
private key, `nonce` the random nonce. -/
def newAddress (P : Prims) (clock : Int) (t : Template) (mailbox nym : Bytes) (r : Nat) (eph nonce : Bytes) : Res Err Bytes :=
  match randAddr r (expireList clock t.expire t.mixes) with
  | none => .err .noMix
  | some m =>
    ofOpt .lioness (P.lionEnc (P.dh eph (fix32 m.pubkey)) (mkPriv P t mailbox (fix32 nym) nonce).asn1) >>= fun pd =>
    .ok (NAddr.asn1 { mixAddress := m.address, expire := t.expire, singleUse := t.singleUse, tokenPubKey := m.tokenKey,
                      mixPubKey := m.pubkey, addressKey := P.pub eph, privateData := pd })

/-! ### mixcrypt/clientmix.go: messages -/

/-- `NewForwardMessage` (clientmix.go:83-96): message and where to deliver it. -/
def newForward (P : Prims) (h : Hdr) (nextHop : Bytes) (key : Option Bytes) (msg eph nonce : Bytes) : Res Err (Bytes × Bytes) :=
  let h := { h with msgType := typeForward, address := nextHop }
  encrypt P key eph nonce (h.marshal ++ msg) >>= fun e => .ok (e, nextHop)

/-- The header `NewRelayMessage` writes (clientmix.go:109-112). -/
def Hdr.forRelay (h : Hdr) (nym revoke : Bytes) : Hdr :=
  { h with msgType := typeRelay, address := nym, revokeID := some revoke }

/-- `NewRelayMessage` (clientmix.go:98-119). -/
def newRelay (P : Prims) (clock : Int) (h : Hdr) (nym msg revoke eph nonce : Bytes) : Res Err (Bytes × Bytes) :=
  parseAddress clock nym >>= fun a =>
  encrypt P (some (fix32 a.mixPubKey)) eph nonce ((h.forRelay nym revoke).marshal ++ msg) >>= fun e =>
  .ok (e, a.mixAddress)

/-- `UniquenessData` (clientmix.go:34-38). -/
structure Uniq where
  hash : Bytes
  expire : Int
  deriving DecidableEq, Repr

/-- `ReceiveStruct` (clientmix.go:25-32). -/
structure Received where
  hdr : Hdr
  addr : Option NAddr
  priv : Option NPriv
  unique : List Uniq
  message : Bytes
  deriving DecidableEq, Repr

/-- `decMessage[lenB : lenB+256]` with the sum in uint16 (clientmix.go:161, 172). -/
def first256 (d : Bytes) (lenB : Nat) : Res Err Bytes :=
  if (lenB + 256) % 65536 < lenB then .panic
  else if d.length < (lenB + 256) % 65536 then .panic
  else .ok ((d.drop lenB).take 256)

/-- The size test (clientmix.go:139-147). -/
def badSize (t : Int) (n : Nat) : Bool :=
  (t = typeRelay && (n < 4096 || 65536 < n)) || (t = typeForward && (n < 1024 || 65536 < n))

/-- The relay branch (clientmix.go:149-168). -/
def recvRelay (P : Prims) (clock : Int) (look : KeyFunc) (d : Bytes) (h : Hdr) (lenB : Nat) : Res Err Received :=
  parseAddress clock h.address >>= fun a =>
  getMixData P look a >>= fun p =>
  first256 d lenB >>= fun f =>
  .ok { hdr := h, addr := some a, priv := some p, message := d.drop lenB,
        unique := { hash := P.hash f, expire := p.expire } ::
          (if p.singleUse then [{ hash := p.receiverPub, expire := p.expire }] else []) }

/-- The other branch (clientmix.go:169-174). -/
def recvOther (P : Prims) (clock : Int) (d : Bytes) (h : Hdr) (lenB : Nat) : Res Err Received :=
  first256 d lenB >>= fun f =>
  .ok { hdr := h, addr := none, priv := none, message := d.drop lenB,
        unique := [{ hash := P.hash f, expire := clock + 172800 }] }

/-- `ReceiveMessage` after decryption (clientmix.go:135-176). -/
def recvPlain (P : Prims) (clock : Int) (look : KeyFunc) (d : Bytes) : Res Err Received :=
  Hdr.unmarshal d >>= fun r =>
  if badSize r.1.msgType (d.length - r.2) then .err .size
  else if r.1.msgType = typeRelay then recvRelay P clock look d r.1 r.2
  else recvOther P clock d r.1 r.2

/-- `ReceiveMessage` (clientmix.go:126-177). -/
def receive (P : Prims) (clock : Int) (look : KeyFunc) (msg : Bytes) : Res Err Received :=
  decrypt P look msg >>= recvPlain P clock look

/-! ### mixcrypt/mixclient.go -/

/-- `MuteSystemDomain` (common.go:38-39): "mute.one". -/
def domain : Bytes := [109, 117, 116, 101, 46, 111, 110, 101]

/-- `sendRelay` (mixclient.go:22-44): `eph` is the random key of `GetHeader`. -/
def sendRelay (P : Prims) (eph : Bytes) (p : NPriv) (msg : Bytes) : Res Err (Bytes × Bytes) :=
  let hs := getHeader P eph p
  if p.system ≠ 0 then .err .badSystem
  else .ok (be16 (UInt16.ofNat hs.1.length) ++ hs.1 ++ gcmEncrypt P (P.hash hs.1) hs.2 msg, p.address ++ domain)

/-- `Send` (mixclient.go:14-20): message and address. The private part is there whenever
`receive` returned a relay message. -/
def send (P : Prims) (eph : Bytes) (r : Received) : Res Err (Bytes × Bytes) :=
  if r.hdr.msgType = typeRelay then
    match r.priv with
    | none => .panic
    | some p => sendRelay P eph p r.message
  else .ok (r.message, r.hdr.address)

/-- The length prefix read by `ReceiveFromMix` (mixclient.go:51). -/
def relayLen (msg : Bytes) : Nat := (msg.getD 0 0).toNat * 256 + (msg.getD 1 0).toNat

/-- `ReceiveFromMix` (mixclient.go:46-66): message and nym. -/
def receiveFromMix (P : Prims) (t : Template) (mailbox msg : Bytes) : Res Err (Bytes × Bytes) :=
  if msg.length < 2 then .err .tooShort
  else if msg.length < 2 + relayLen msg then .err .tooShort
  else
    let hc := (msg.drop 2).take (relayLen msg)
    getPrivate P t hc mailbox >>= fun r =>
    gcmDecrypt P (P.hash hc) r.2 (msg.drop (2 + relayLen msg)) >>= fun m => .ok (m, r.1)

end Verif.Mix

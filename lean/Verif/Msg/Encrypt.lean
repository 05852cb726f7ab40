import Verif.Msg.Keys
/-
Model of msg/encrypt.go:106-441 (`Encrypt`), msg/header.go (`newHeader`,
`newHeaderPacket`) and the CTR stream.
-/
namespace Verif.Msg
open Wire (Outer Inner newOuter newInner newPre)

/-- XORKeyStream of cipher/aes256 CTRStream, starting at key stream offset `i`. -/
def ctr (P : Prims) (key iv : Bytes) : Nat → Bytes → Bytes
  | _, [] => []
  | i, x :: xs => (x ^^^ P.ks key iv i) :: ctr P key iv (i + 1) xs

/-- msg/msg.go:17, 26, 32-34. -/
def numOfFutureKeys : UInt64 := 50
def encodedMsgSize : Nat := 65536
def maxContentLength : Nat := 41691

/-- Header status codes, msg/header.go:36-40. -/
def statusOK : UInt8 := 0
def statusReset : UInt8 := 1
def statusError : UInt8 := 2

/-- msg/header.go:25-30, uid/length/length.go, identity.MaxLen and
hashchain.EntryBase64Len. -/
def lengthEncryptedHeader : UInt16 := 7168
def wiggleRoom : Nat := 1316
def identityMaxLen : Nat := 254
def keyEntryLen : Nat := 247
def nilLen : Nat := 4
def maxNymAddress : Nat := 1568
def maxUIDMessage : Nat := 2004
def entryBase64Len : Nat := 204

/-- util/digits/digits.go:9-52, `Count`. -/
def digitsCount (i : UInt64) : Nat :=
  if i < 10 then 1 else
  if i < 100 then 2 else
  if i < 1000 then 3 else
  if i < 10000 then 4 else
  if i < 100000 then 5 else
  if i < 1000000 then 6 else
  if i < 10000000 then 7 else
  if i < 100000000 then 8 else
  if i < 1000000000 then 9 else
  if i < 10000000000 then 10 else
  if i < 100000000000 then 11 else
  if i < 1000000000000 then 12 else
  if i < 10000000000000 then 13 else
  if i < 100000000000000 then 14 else
  if i < 1000000000000000 then 15 else
  if i < 10000000000000000 then 16 else
  if i < 100000000000000000 then 17 else
  if i < 1000000000000000000 then 18 else
  if i < 10000000000000000000 then 19 else 20

/-- Random choices of one encryption: private header key, private session keys,
nonce, IV, whether the 1/AvgSessionSize coin starts a new session
(encrypt.go:202-206), and the two padding generators (padding.Generate and its
hexadecimal form). -/
structure Rnd where
  headerPriv : Bytes
  sessPriv : Bytes
  nextPriv : Bytes
  nonce : Bytes
  iv : Bytes
  newSession : Bool
  pad : Nat → Bytes
  hexPad : Nat → Str

/-- What the random sources guarantee: the lengths asked for. -/
structure Rnd.Good (r : Rnd) : Prop where
  nonce_len : r.nonce.length = 24
  iv_len : r.iv.length = 16
  pad_len : ∀ n, (r.pad n).length = n
  hexPad_len : ∀ n, (r.hexPad n).length = n

/-- msg/encrypt.go:89-102, `EncryptArgs`; `content` is what Reader delivers. -/
structure EncArgs where
  «from» : UID
  to : UID
  nymAddress : Str
  lastHash : Str
  sigKey : Option Bytes
  content : Bytes
  numOfKeys : UInt64
  status : UInt8

/-- The padding length of msg/header.go:103-131. -/
def padLen (h : Header) : Nat :=
  wiggleRoom + (identityMaxLen - h.senderIdentity.length) +
  (if h.nextSenderSessionPub.isNone then keyEntryLen - nilLen else 0) +
  (if h.nextRecipientSessionPubSeen.isNone then keyEntryLen - nilLen else 0) +
  (maxNymAddress - h.nymAddress.length) +
  (20 - digitsCount 0) + (20 - digitsCount h.senderSessionCount) +
  (20 - digitsCount h.senderMessageCount) +
  (maxUIDMessage - h.senderUID.length)

/-- msg/header.go:68-145, `newHeader`; the key entries are copied, JSON keeps
their exported fields. -/
def newHeader (a : EncArgs) (rnd : Rnd) (ss : State) : Prog Header := do
  failIf (a.lastHash.length ≠ entryBase64Len) .lastHashLen
  let h : Header :=
    { recipientPubHash := a.to.pubKey.hash
      recipientTempHash := ss.recipientTemp.hash
      senderIdentity := a.from.identity
      senderSessionPub := ss.senderSessionPub.public
      senderIdentityPubHash := a.from.pubKey.hash
      senderIdentityPub := a.from.pubKey.public
      nextSenderSessionPub := ss.nextSenderSessionPub.map KeyEntry.public
      nextRecipientSessionPubSeen := ss.nextRecipientSessionPubSeen.map KeyEntry.public
      nymAddress := a.nymAddress
      senderSessionCount := ss.senderSessionCount
      senderMessageCount := ss.senderMessageCount
      senderUID := a.from.json
      senderLastKeychainHash := a.lastHash
      status := a.status
      padding := [] }
  failIf (h.senderIdentity.length > identityMaxLen) .headerLen
  failIf (h.nymAddress.length > maxNymAddress) .headerLen
  failIf (h.senderUID.length > maxUIDMessage) .headerLen
  .ret { h with padding := rnd.hexPad (padLen h) }

/-- msg/header.go:147-185, `newHeaderPacket` and `write`. -/
def headerPacket (P : Prims) (h : Header) (recipientPub headerPriv nonce : Bytes) :
    Prog Bytes :=
  let ct := P.boxSeal (P.marshal h) nonce recipientPub headerPriv
  if UInt16.ofNat ct.length ≠ lengthEncryptedHeader then .fail .headerLen else
  .ret (nonce ++ be16 (UInt16.ofNat ct.length) ++ ct)

/-- msg/encrypt.go:142-214: find or start the session. Returns the session state
and the nym address to deliver to. -/
def encSession (P : Prims) (a : EncArgs) (rnd : Rnd) (numOfKeys : UInt64)
    (stateKey : Str) : Prog (State × Str) := do
  let ss? ← if a.status ≠ statusReset then Prog.ask (.getState stateKey) else .ret none
  match ss? with
  | none =>
    let (recipientTemp, nym) ← Prog.ask (.getPub a.to.identity)
    let senderSession := initDHKey P rnd.sessPriv
    addSessionKey P senderSession
    rootKeyAgreementSender P (P.dhPub rnd.headerPriv) a.from.identity a.to.identity
      senderSession a.from.pubKey recipientTemp a.to.pubKey none numOfKeys
    let ss : State :=
      { senderSessionCount := 0, senderMessageCount := 0, maxRecipientCount := 0,
        recipientTemp := recipientTemp, senderSessionPub := senderSession,
        nextSenderSessionPub := none, nextRecipientSessionPubSeen := none,
        nymAddress := nym, keyInitSession := true }
    Prog.ask (.setState stateKey ss)
    .ret (ss, nym)
  | some ss =>
    if a.status ≠ statusError then
      if ss.nextSenderSessionPub.isNone && rnd.newSession then
        let (ss', _) ← setNextSenderSessionPub P ss stateKey rnd.nextPriv
        .ret (ss', ss.nymAddress)
      else .ret (ss, ss.nymAddress)
    else .ret (ss, [])

/-- msg/encrypt.go:301-416: everything after the header packet, given the
message key: crypto setup, content, signature/padding and HMAC packets. -/
def encBody (P : Prims) (mk : Bytes) (rnd : Rnd) (sigKey : Option Bytes) (content : Bytes) :
    Bytes :=
  let (ck, hk) := deriveSymmetricKeys P mk
  let p2 := (newOuter Wire.cryptoSetup 2 rnd.iv).write true
  let plain1 := (newInner (if sigKey.isSome then Wire.dataType ||| Wire.signType
    else Wire.dataType) false content).write
  let p3 := (newOuter Wire.encryptedPacket 3 (ctr P ck rnd.iv 0 plain1)).write true
  let plain2 := match sigKey with
    | some sk => (newInner Wire.signatureType true (P.sign sk (P.sha512 content))).write ++
        (newInner Wire.paddingType false (rnd.pad (maxContentLength - content.length))).write
    | none => (newInner Wire.paddingType false
        (rnd.pad (maxContentLength + 76 - 12 + 5 - content.length))).write
  let p4 := (newOuter Wire.encryptedPacket 4 (ctr P ck rnd.iv plain1.length plain2)).write true
  let oh : Outer := { newOuter Wire.hmacPacket 5 [] with plen := 64 }
  let mac := P.hmac hk (p2 ++ p3 ++ p4 ++ oh.write false)
  p2 ++ p3 ++ p4 ++ { oh with inner := mac }.write true

/-- uid/uid.go:340-352, `PublicKey`: decode error, or panic on a wrong length. -/
def uidPublicKey (P : Prims) (u : UID) : Prog Bytes :=
  match P.unb64 u.pubKey.pubkey with
  | none => .fail .badUID
  | some pk => if pk.length ≠ 32 then .panic else .ret pk

/-- The key extension of msg/encrypt.go:265-286. -/
def encExtend (P : Prims) (a : EncArgs) (numOfKeys : UInt64) (ss : State)
    (sessionKey : Str) : Prog Unit := do
  let n ← Prog.ask (.numKeys sessionKey)
  if ss.senderMessageCount ≥ n then
    let chainKey ← Prog.ask (.getChain sessionKey)
    let sp ← orPanic (ss.senderSessionPub.pub32 P)
    let rp ← orPanic (ss.recipientTemp.pub32 P)
    generateMessageKeys P a.from.identity a.to.identity a.from.pubKey.hash a.to.pubKey.hash
      chainKey false sp rp numOfKeys
  else .ret ()

/-- msg/encrypt.go:106-441, `Encrypt`: writes the base64 form of the packets and
returns the nym address. -/
def encrypt (P : Prims) (a : EncArgs) (rnd : Rnd) : Prog Str := do
  let numOfKeys := if a.numOfKeys = 0 then numOfFutureKeys else a.numOfKeys
  let p0 := (newOuter Wire.preHeaderPacket 0 (newPre (P.dhPub rnd.headerPriv)).write).write true
  let fp ← orPanic (a.from.pubKey.pub32 P)
  let tp ← orPanic (a.to.pubKey.pub32 P)
  let stateKey := calcStateKey P fp tp
  let (ss, nym) ← encSession P a rnd numOfKeys stateKey
  let h ← newHeader a rnd ss
  let rp ← uidPublicKey P a.to
  let hp ← headerPacket P h rp rnd.headerPriv rnd.nonce
  let p1 := (newOuter Wire.encryptedHeader 1 hp).write true
  let sessionKey := calcKey P a.from.pubKey.hash a.to.pubKey.hash
    ss.senderSessionPub.hash ss.recipientTemp.hash
  encExtend P a numOfKeys ss sessionKey
  let mk ← Prog.ask (.getMsgKey sessionKey true ss.senderMessageCount)
  let content := if a.status = statusOK then a.content else []
  failIf (content.length > maxContentLength) .contentTooLong
  let out := P.b64 (p0 ++ p1 ++ encBody P mk rnd a.sigKey content)
  failIf (out.length ≠ encodedMsgSize) .outLen
  Prog.try' (.write out)
  Prog.ask (.delMsgKey sessionKey true ss.senderMessageCount)
  let ss' := { ss with senderMessageCount := ss.senderMessageCount + 1 }
  Prog.ask (.setState stateKey ss')
  .ret nym

end Verif.Msg

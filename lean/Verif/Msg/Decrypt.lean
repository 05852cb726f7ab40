import Verif.Msg.Encrypt
/-
Model of msg/decrypt.go:102-582 (`Decrypt`), msg/header.go:187-277
(`readHeader`, `verify`) and msg/procuid.go.
-/
namespace Verif.Msg
open Wire (Outer Inner readOuter readInner readN read16 readPre)

/-- msg/decrypt.go:87-95, `DecryptArgs`; `reader` is what Reader delivers
(after base64 decoding and the first outer header), `fresh` the private key
drawn from Rand if a next session key is created. -/
structure DecArgs where
  identities : List UID
  preHeader : Bytes
  reader : Bytes
  numOfKeys : UInt64
  fresh : Bytes

/-- msg/header.go:239-277, `verify`. -/
def Header.verify (P : Prims) (h : Header) : Bool :=
  let ok := fun (ke : KeyEntry) => ke.verify P && ke.func == .ecdhe
  ok h.senderSessionPub && ok h.senderIdentityPub &&
  h.nextSenderSessionPub.all ok && h.nextRecipientSessionPubSeen.all ok

/-- The loop of msg/header.go:212-223 over the recipient identities. -/
def tryOpen (P : Prims) (ct nonce headerPub : Bytes) : List UID → Prog (UID × Bytes)
  | [] => .fail .noPreHeaderKey
  | u :: us => do
    let priv ← orPanic u.pubKey.priv32
    match P.boxOpen ct nonce headerPub priv with
    | some jsn => .ret (u, jsn)
    | none => tryOpen P ct nonce headerPub us

/-- msg/header.go:187-236, `readHeader`. -/
def readHeader (P : Prims) (headerPub : Bytes) (ids : List UID) (r : Bytes) :
    Prog (UID × Header) := do
  let (nonce, r) ← Prog.wire (readN 24 r)
  let (len, r) ← Prog.wire (read16 r)
  let (ct, _) ← Prog.wire (readN len.toNat r)
  let (u, jsn) ← tryOpen P ct nonce headerPub ids
  match P.parse jsn with
  | none => .fail .badHeader
  | some h =>
    failIf (!h.verify P) .keyEntry
    .ret (u, h)

/-- msg/decrypt.go:172-236: the session is unknown. Returns the session state. -/
def decUnknown (P : Prims) (a : DecArgs) (numOfKeys : UInt64) (headerPub : Bytes) (u : UID)
    (h : Header) (stateKey sessionKey : Str) (ss : Option State) : Prog (Option State) := do
  let r ← Prog.try' (.getPriv h.recipientTempHash)
  match r with
  | .error .noKeyEntry => .ret ss
  | .error e => .fail (.store e)
  | .ok recipientKI =>
    rootKeyAgreementRecipient P headerPub h.senderIdentity u.identity h.senderSessionPub
      h.senderIdentityPub recipientKI u.pubKey none numOfKeys
    let start := match ss with
      | none => true
      | some s => s.keyInitSession && decide (h.senderIdentity < u.identity)
    if start then
      let next := initDHKey P a.fresh
      addSessionKey P next
      match h.nextSenderSessionPub with
      | some hn =>
        let prev ← Prog.ask (.getRootHash sessionKey)
        rootKeyAgreementSender P headerPub u.identity h.senderIdentity next u.pubKey hn
          h.senderIdentityPub (some prev) numOfKeys
      | none => .ret ()
      let ss' : State :=
        { senderSessionCount := 0, senderMessageCount := 0, maxRecipientCount := 0,
          recipientTemp := h.senderSessionPub, senderSessionPub := recipientKI,
          nextSenderSessionPub := some next,
          nextRecipientSessionPubSeen := h.nextSenderSessionPub,
          nymAddress := h.nymAddress, keyInitSession := false }
      Prog.ask (.setState stateKey ss')
      .ret (some ss')
    else .ret ss

/-- msg/decrypt.go:237-345: the session is known; a missing session state is a
nil dereference. -/
def decKnown (P : Prims) (a : DecArgs) (numOfKeys : UInt64) (headerPub : Bytes) (u : UID)
    (h : Header) (stateKey sessionKey : Str) (ss : Option State) : Prog (Option State) := do
  let s ← orPanic ss
  let s' ←
    if h.recipientTempHash = s.senderSessionPub.hash ∧
        h.senderSessionPub.hash = s.recipientTemp.hash then
      match h.nextSenderSessionPub with
      | none => .ret s
      | some hn =>
        match s.nextSenderSessionPub with
        | none => do
          let (s1, next) ← setNextSenderSessionPub P s stateKey a.fresh
          let prev ← Prog.ask (.getRootHash sessionKey)
          rootKeyAgreementSender P headerPub u.identity h.senderIdentity next u.pubKey hn
            h.senderIdentityPub (some prev) numOfKeys
          if s1.nextRecipientSessionPubSeen.isNone then
            let s2 := { s1 with nextRecipientSessionPubSeen := some hn }
            Prog.ask (.setState stateKey s2)
            .ret s2
          else .ret s1
        | some sn =>
          if h.nextRecipientSessionPubSeen.any (fun x => decide (x.hash = sn.hash)) then do
            let next ← getSessionKey P sn.hash
            let prev ← Prog.ask (.getRootHash sessionKey)
            rootKeyAgreementRecipient P headerPub h.senderIdentity u.identity hn
              h.senderIdentityPub next u.pubKey (some prev) numOfKeys
            let s2 : State :=
              { senderSessionCount := s.senderSessionCount + s.senderMessageCount,
                senderMessageCount := 0, maxRecipientCount := 0, recipientTemp := hn,
                senderSessionPub := next, nextSenderSessionPub := none,
                nextRecipientSessionPubSeen := none, nymAddress := h.nymAddress,
                keyInitSession := false }
            Prog.ask (.setState stateKey s2)
            .ret s2
          else .ret s
    else
      match s.nextSenderSessionPub, s.nextRecipientSessionPubSeen with
      | some sn, some sr =>
        if sn.hash = h.recipientTempHash ∧ sr.hash = h.senderSessionPub.hash then do
          let s2 : State :=
            { senderSessionCount := s.senderSessionCount + s.senderMessageCount,
              senderMessageCount := 0, maxRecipientCount := 0,
              recipientTemp := h.senderSessionPub, senderSessionPub := sn,
              nextSenderSessionPub := none, nextRecipientSessionPubSeen := none,
              nymAddress := h.nymAddress, keyInitSession := false }
          Prog.ask (.setState stateKey s2)
          .ret s2
        else .ret s
      | _, _ => .ret s
  Prog.ask (.delSKey h.recipientTempHash)
  .ret (some s')

/-- The number of keys to generate for message `count`, msg/decrypt.go:361-365
(64-bit arithmetic). -/
def keysNeeded (count numOfKeys : UInt64) : UInt64 :=
  let q := count / numOfKeys
  let q := if count % numOfKeys > 0 then q + 1 else q
  q * numOfKeys

/-- The limit of msg/decrypt.go:366: MaxMsgSize/MaxContentLength+NumOfFutureKeys
= 10485760/41691+50. -/
def keyLimit : UInt64 := 10485760 / 41691 + 50

/-- msg/decrypt.go:347-398: make sure there are enough message keys. -/
def decExtend (P : Prims) (numOfKeys : UInt64) (u : UID) (h : Header) (sessionKey : Str)
    (ss : Option State) : Prog Unit := do
  let n ← Prog.ask (.numKeys sessionKey)
  if h.senderMessageCount ≥ n then
    let chainKey ← Prog.ask (.getChain sessionKey)
    let need := keysNeeded h.senderMessageCount numOfKeys
    failIf (need > keyLimit) .tooManyKeys
    let s ← orPanic ss
    let recipientPub ←
      if h.recipientTempHash = s.senderSessionPub.hash then
        orPanic (s.senderSessionPub.pub32 P)
      else do
        let r ← Prog.try' (.getPriv h.recipientTempHash)
        match r with
        | .ok ki => orPanic (ki.pub32 P)
        | .error .noKeyEntry => do
          let ke ← getSessionKey P h.recipientTempHash
          orPanic (ke.pub32 P)
        | .error e => .fail (.store e)
    let sp ← orPanic (h.senderSessionPub.pub32 P)
    generateMessageKeys P h.senderIdentity u.identity h.senderIdentityPub.hash u.pubKey.hash
      chainKey true sp recipientPub need
  else .ret ()

/-- Read an outer packet and check its type and count (four places in
msg/decrypt.go: 414-423, 437-446, 476-485/510-519, 554-563). -/
def readPacket (r : Bytes) (t : UInt8) (e : Err) (count : UInt32) : Prog (Outer × Bytes) := do
  let (oh, r) ← Prog.wire (readOuter r)
  failIf (oh.type ≠ t) e
  failIf (oh.count ≠ count) .wrongCount
  .ret (oh, r)

/-- msg/decrypt.go:407-573: everything after the message key was obtained; the
content is written (line 464) before signature and HMAC are checked. Returns the
signature (empty if unsigned). -/
def decBody (P : Prims) (mk : Bytes) (senderUID : Str) (r : Bytes) : Prog Str := do
  let (ck, hk) := deriveSymmetricKeys P mk
  let (p2, r) ← readPacket r Wire.cryptoSetup .notCryptoSetup 2
  failIf (p2.plen ≠ 16) .wrongCryptoSetup
  let iv := p2.inner
  let (p3, r) ← readPacket r Wire.encryptedPacket .notEncryptedPacket 3
  let plain := ctr P ck iv 0 p3.inner
  let (ih, _) ← Prog.wire (readInner plain)
  failIf (ih.type &&& Wire.dataType == 0) .notData
  let signed := ih.type &&& Wire.signType != 0
  Prog.try' (.write ih.content)
  let (p4, r) ← readPacket r Wire.encryptedPacket .notEncryptedPacket 4
  let plain2 := ctr P ck iv p3.inner.length p4.inner
  let (ih2, _) ← Prog.wire (readInner plain2)
  if signed then
    failIf (ih2.type &&& Wire.signatureType == 0) .notSignature
    failIf (ih2.content.length ≠ 64) .wrongSigLen
  else
    failIf (ih2.type &&& Wire.paddingType == 0) .notPadding
  let sig ← match P.parseUID senderUID with
    | none => .fail .badUID
    | some uid =>
      if signed then do
        let pk ← orPanic (uid.sigKey.pub32 P)
        failIf (!P.verify pk (P.sha512 ih.content) ih2.content) .badSignature
        .ret (P.b64 ih2.content)
      else .ret []
  let (p5, _) ← readPacket r Wire.hmacPacket .notHMAC 5
  let mac := P.hmac hk (p2.write true ++ p3.write true ++ p4.write true ++ p5.write false)
  failIf (mac ≠ p5.inner) .hmacsDiffer
  .ret sig

/-- msg/decrypt.go:110-140: read the pre-header and the header packet. Returns
the sender's header key, the recipient identity it was encrypted to, the header
and the rest of the input. -/
def decHead (P : Prims) (a : DecArgs) : Prog (Bytes × UID × Header × Bytes) := do
  let (ph, _) ← Prog.wire (readPre a.preHeader)
  failIf (ph.lenPub ≠ 32) .headerPubLen
  let (p1, r) ← readPacket a.reader Wire.encryptedHeader .notEncryptedHeader 1
  let (u, h) ← readHeader P ph.pub a.identities p1.inner
  .ret (ph.pub, u, h, r)

/-- msg/decrypt.go:169-170, the key of the session a message belongs to. -/
def decSessionKey (P : Prims) (u : UID) (h : Header) : Str :=
  calcKey P u.pubKey.hash h.senderIdentityPub.hash h.recipientTempHash h.senderSessionPub.hash

/-- msg/decrypt.go:155-345: the session handling. -/
def decSession (P : Prims) (a : DecArgs) (numOfKeys : UInt64) (headerPub : Bytes) (u : UID)
    (h : Header) : Prog (Option State) := do
  let rp ← orPanic (u.pubKey.pub32 P)
  let sp ← orPanic (h.senderIdentityPub.pub32 P)
  let stateKey := calcStateKey P rp sp
  let ss ← Prog.ask (.getState stateKey)
  let known ← Prog.try' (.hasSession (decSessionKey P u h))
  if known then decKnown P a numOfKeys headerPub u h stateKey (decSessionKey P u h) ss
  else decUnknown P a numOfKeys headerPub u h stateKey (decSessionKey P u h) ss

/-- msg/decrypt.go:102-582, `Decrypt`: sender identity and signature. -/
def decrypt (P : Prims) (a : DecArgs) : Prog (Str × Str) := do
  let numOfKeys := if a.numOfKeys = 0 then numOfFutureKeys else a.numOfKeys
  let (headerPub, u, h, r) ← decHead P a
  let ss ← decSession P a numOfKeys headerPub u h
  decExtend P numOfKeys u h (decSessionKey P u h) ss
  let mk ← Prog.ask (.getMsgKey (decSessionKey P u h) false h.senderMessageCount)
  let sig ← decBody P mk h.senderUID r
  Prog.ask (.delMsgKey (decSessionKey P u h) false h.senderMessageCount)
  .ret (h.senderIdentity, sig)

end Verif.Msg

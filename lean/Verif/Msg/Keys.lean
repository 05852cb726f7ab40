import Verif.Msg.Base
/-
Model of msg/keys.go and of the two root key agreements.
-/
namespace Verif.Msg

/-- The bytes of "MESSAGE" and "CHAIN" (msg/keys.go:114, 124). -/
def sMESSAGE : Bytes := [77, 69, 83, 83, 65, 71, 69]
def sCHAIN : Bytes := [67, 72, 65, 73, 78]

/-- msg/keys.go:21-53, `checkKeys`. -/
def checkKeys (kh k1 k2 k3 k4 : Bytes) : Prog Unit :=
  if kh = k1 then .fail .reflection else
  if kh = k2 then .fail .reflection else
  if kh = k3 then .fail .reflection else
  if kh = k4 then .fail .reflection else
  if k1 = k2 then .fail .reflection else
  if k1 = k3 then .fail .reflection else
  if k1 = k4 then .fail .reflection else
  if k2 = k3 then .fail .reflection else
  if k2 = k4 then .fail .reflection else
  if k3 = k4 then .fail .reflection else
  .ret ()

/-- msg/keys.go:57-78, `deriveRootKey`; a missing previous hash leaves zeros. -/
def deriveRootKey (P : Prims) (t1 t2 t3 : Bytes) (prev : Option Bytes) : Bytes :=
  P.hkdf (t1 ++ t2 ++ t3 ++ (prev.getD (List.replicate 64 0))) 32

/-- cipher/curve25519.go:68-94, `ECDH` with all three arguments given. -/
def ecdh (P : Prims) (priv peer own : Bytes) : Prog Bytes :=
  if own = peer then .fail .reflection else .ret (P.dh priv peer)

/-- One message key, msg/keys.go:114-116 and 119-121. -/
def messageKey (P : Prims) (chain pubHash fix : Bytes) : Str :=
  P.b64 (P.hmac chain (sMESSAGE ++ pubHash ++ fix))

/-- Next chain key, msg/keys.go:124. -/
def nextChain (P : Prims) (chain : Bytes) : Bytes := (P.hmac chain sCHAIN).take 32

/-- The loop of msg/keys.go:112-125: the two key lists and the last chain key. -/
def genLoop (P : Prims) (sendHash recvHash fix : Bytes) : Nat → Bytes →
    List Str × List Str × Bytes
  | 0, chain => ([], [], chain)
  | n + 1, chain =>
    let (s, r, c) := genLoop P sendHash recvHash fix n (nextChain P chain)
    (messageKey P chain sendHash fix :: s, messageKey P chain recvHash fix :: r, c)

/-- msg/keys.go:101-107, identity_fix. -/
def identityFix (P : Prims) (senderIdentity recipientIdentity : Str) : Bytes :=
  P.sha512 (if senderIdentity < recipientIdentity then senderIdentity ++ recipientIdentity
    else recipientIdentity ++ senderIdentity)

/-- msg/keys.go:86-158, `generateMessageKeys`. `bzero.Bytes(rootKey)` (line 129)
also clears the chain key if no key was generated, because then `chainKey` still
is `rootKey[:]`. -/
def generateMessageKeys (P : Prims) (senderIdentity recipientIdentity : Str)
    (senderHash recipientHash : Str) (rootKey : Bytes) (recipientKeys : Bool)
    (senderSessionPub recipientPub : Bytes) (numOfKeys : UInt64) : Prog Unit :=
  let fix := identityFix P senderIdentity recipientIdentity
  let recipientPubHash := P.sha512 recipientPub
  let senderSessionPubHash := P.sha512 senderSessionPub
  let (send, recv, chain) :=
    genLoop P recipientPubHash senderSessionPubHash fix numOfKeys.toNat rootKey
  let chain := if numOfKeys = 0 then List.replicate 32 0 else chain
  let rootKeyHash := P.b64 (P.sha512 rootKey)
  let sessionKey :=
    if recipientKeys then
      P.b64 (P.sha512 (recipientHash ++ senderHash ++
        (P.b64 (P.sha512 recipientPub) ++ P.b64 (P.sha512 senderSessionPub))))
    else
      P.b64 (P.sha512 (senderHash ++ recipientHash ++
        (P.b64 (P.sha512 senderSessionPub) ++ P.b64 (P.sha512 recipientPub))))
  Prog.ask (.storeSession sessionKey rootKeyHash (P.b64 chain)
    (if recipientKeys then recv else send) (if recipientKeys then send else recv))

/-- msg/keys.go:162-181, `deriveSymmetricKeys`: crypto key and HMAC key. -/
def deriveSymmetricKeys (P : Prims) (mk : Bytes) : Bytes × Bytes :=
  ((P.hkdf mk 64).take 32, (P.hkdf mk 64).drop 32)

/-- msg/encrypt.go:27-86, `rootKeyAgreementSender`. -/
def rootKeyAgreementSender (P : Prims) (headerPub : Bytes)
    (senderIdentity recipientIdentity : Str)
    (senderSession senderID recipientKI recipientID : KeyEntry) (prev : Option Bytes)
    (numOfKeys : UInt64) : Prog Unit := do
  let senderIdentityPub ← orPanic (senderID.pub32 P)
  let senderIdentityPriv ← orPanic senderID.priv32
  let senderSessionPub ← orPanic (senderSession.pub32 P)
  let senderSessionPriv ← orPanic senderSession.priv32
  let recipientIdentityPub ← orPanic (recipientID.pub32 P)
  let recipientKeyInitPub ← orPanic (recipientKI.pub32 P)
  checkKeys headerPub senderIdentityPub senderSessionPub recipientIdentityPub
    recipientKeyInitPub
  let t1 ← ecdh P senderIdentityPriv recipientKeyInitPub senderIdentityPub
  let t2 ← ecdh P senderSessionPriv recipientKeyInitPub senderSessionPub
  let t3 ← ecdh P senderSessionPriv recipientIdentityPub senderSessionPub
  generateMessageKeys P senderIdentity recipientIdentity senderID.hash recipientID.hash
    (deriveRootKey P t1 t2 t3 prev) false senderSessionPub recipientKeyInitPub numOfKeys

/-- msg/decrypt.go:24-84, `rootKeyAgreementRecipient`. -/
def rootKeyAgreementRecipient (P : Prims) (headerPub : Bytes)
    (senderIdentity recipientIdentity : Str)
    (senderSession senderID recipientKI recipientID : KeyEntry) (prev : Option Bytes)
    (numOfKeys : UInt64) : Prog Unit := do
  let recipientIdentityPub ← orPanic (recipientID.pub32 P)
  let recipientIdentityPriv ← orPanic recipientID.priv32
  let recipientKeyInitPub ← orPanic (recipientKI.pub32 P)
  let recipientKeyInitPriv ← orPanic recipientKI.priv32
  let senderSessionPub ← orPanic (senderSession.pub32 P)
  let senderIdentityPub ← orPanic (senderID.pub32 P)
  checkKeys headerPub senderIdentityPub senderSessionPub recipientIdentityPub
    recipientKeyInitPub
  let t1 ← ecdh P recipientKeyInitPriv senderIdentityPub recipientKeyInitPub
  let t2 ← ecdh P recipientKeyInitPriv senderSessionPub recipientKeyInitPub
  let t3 ← ecdh P recipientIdentityPriv senderSessionPub recipientIdentityPub
  generateMessageKeys P senderIdentity recipientIdentity senderID.hash recipientID.hash
    (deriveRootKey P t1 t2 t3 prev) true senderSessionPub recipientKeyInitPub numOfKeys

end Verif.Msg

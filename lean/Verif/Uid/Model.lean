/-
uid/uid.go, uid/keyentry.go, uid/keyinit.go: UID messages, their signatures and
updates, key server replies and KeyInit messages.

Go strings are byte strings. The public part of a key entry is modelled as a
value; the private keys a Go KeyEntry may hold are kept beside the message
(`Owned`). JSON encoding and decoding, the hashes, Ed25519 and Curve25519 are
parameters (`Prims`); base64 and AES-CTR are the concrete models.
-/
import Verif.Util.Model
import Verif.Cipher.Aes

namespace Verif.Uid

open Verif.Util

/-- A Go string. -/
abbrev Str := Bytes

/-- The bytes of an ASCII literal. -/
def lit (s : String) : Str := s.toList.map fun c => UInt8.ofNat c.toNat

/-- A string of ASCII characters. -/
def Ascii (s : Str) : Prop := ∀ c ∈ s, c < 128

/-- The exported fields of `KeyEntry` (keyentry.go:29-33). -/
structure KeyEntry where
  ciphersuite : Str
  function : Str
  hash : Str
  pubkey : Str
  deriving DecidableEq, Repr

/-- `preferences` (uid.go:67-70). -/
structure Prefs where
  forwardsec : Str
  ciphersuites : List Str
  deriving DecidableEq, Repr

/-- `chainlink` (uid.go:72-78). -/
structure ChainLink where
  uri : List Str
  last : Str
  authoritative : Bool
  domains : List Str
  identity : Str
  deriving DecidableEq, Repr

/-- `uidContent` (uid.go:80-95). -/
structure Content where
  version : Str
  msgcount : UInt64
  notafter : UInt64
  notbefore : UInt64
  mixaddress : Str
  nymaddress : Str
  identity : Str
  sigkey : KeyEntry
  pubkeys : List KeyEntry
  sigescrow : Option KeyEntry
  lastentry : Str
  repouris : List Str
  prefs : Prefs
  chainlink : Option ChainLink
  deriving DecidableEq, Repr

/-- `Message` (uid.go:99-111). -/
structure Message where
  content : Content
  escrowSig : Str
  userSig : Str
  selfSig : Str
  linkAuthority : Str
  deriving DecidableEq, Repr

/-- A message together with the private halves of SIGKEY and PUBKEYS[0] held in
memory (keyentry.go:34-37); `none` is a key that is not set. -/
structure Owned where
  msg : Message
  sigPriv : Option Bytes
  encPriv : Option Bytes
  deriving DecidableEq, Repr

/-- `Entry` (uid.go:114-118). -/
structure Entry where
  uidMessageEncrypted : Str
  hashchainEntry : Str
  hashchainPos : UInt64
  deriving DecidableEq, Repr

/-- `MessageReply` (uid.go:121-124). -/
structure Reply where
  entry : Entry
  serverSig : Str
  deriving DecidableEq, Repr

/-- `SessionAnchor` (keyinit.go:20-24). -/
structure Anchor where
  mixaddress : Str
  nymaddress : Str
  pfkeys : List KeyEntry
  deriving DecidableEq, Repr

/-- `contents` (keyinit.go:26-36). -/
structure KIContents where
  version : Str
  msgcount : UInt64
  notafter : UInt64
  notbefore : UInt64
  fallback : Bool
  sigkeyhash : Str
  repouri : Str
  sessionanchor : Str
  sessionanchorhash : Str
  deriving DecidableEq, Repr

/-- `KeyInit` (keyinit.go:39-42). -/
structure KeyInit where
  contents : KIContents
  signature : Str
  deriving DecidableEq, Repr

/-- What the package takes from its environment: hashes, the block cipher,
Ed25519 (`edPriv` makes the private key from 32 random bytes, `edPub` is its
public key), Curve25519, JSON encoding (`marshalSorted`, uid.go:406-417) and
decoding, and the check of package identity. -/
structure Prims where
  sha256 : Bytes → Bytes
  sha512 : Bytes → Bytes
  aes : Cipher.Block
  edPriv : Bytes → Bytes
  edPub : Bytes → Bytes
  sign : Bytes → Bytes → Bytes
  verify : Bytes → Bytes → Bytes → Bool
  dhPub : Bytes → Bytes
  contentJSON : Content → Bytes
  msgJSON : Message → Bytes
  parseMsg : Bytes → Option Message
  entryJSON : Entry → Bytes
  anchorJSON : Anchor → Bytes
  parseAnchor : Bytes → Option Anchor
  kiContentsJSON : KIContents → Bytes
  kiJSON : KeyInit → Bytes
  isMapped : Str → Bool

/-- All strings of a key entry are ASCII. -/
def KeyEntry.Ascii (k : KeyEntry) : Prop :=
  Uid.Ascii k.ciphersuite ∧ Uid.Ascii k.function ∧ Uid.Ascii k.hash ∧ Uid.Ascii k.pubkey

/-- All strings of a session anchor are ASCII. -/
def Anchor.Ascii (a : Anchor) : Prop :=
  Uid.Ascii a.mixaddress ∧ Uid.Ascii a.nymaddress ∧ ∀ k ∈ a.pfkeys, k.Ascii

/-- All strings of a chain link are ASCII. -/
def ChainLink.Ascii (c : ChainLink) : Prop :=
  (∀ s ∈ c.uri, Uid.Ascii s) ∧ Uid.Ascii c.last ∧ (∀ s ∈ c.domains, Uid.Ascii s) ∧
    Uid.Ascii c.identity

/-- All strings of a UID message are ASCII. -/
def Message.Ascii (m : Message) : Prop :=
  Uid.Ascii m.content.version ∧ Uid.Ascii m.content.mixaddress ∧ Uid.Ascii m.content.nymaddress ∧
  Uid.Ascii m.content.identity ∧ m.content.sigkey.Ascii ∧ (∀ k ∈ m.content.pubkeys, k.Ascii) ∧
  (∀ k, m.content.sigescrow = some k → k.Ascii) ∧ Uid.Ascii m.content.lastentry ∧
  (∀ s ∈ m.content.repouris, Uid.Ascii s) ∧ Uid.Ascii m.content.prefs.forwardsec ∧
  (∀ s ∈ m.content.prefs.ciphersuites, Uid.Ascii s) ∧
  (∀ c, m.content.chainlink = some c → c.Ascii) ∧ Uid.Ascii m.escrowSig ∧ Uid.Ascii m.userSig ∧
  Uid.Ascii m.selfSig ∧ Uid.Ascii m.linkAuthority

/-- The laws assumed of the environment: sizes, signatures made with a private
key verify under its public key, and JSON decoding undoes encoding for messages
without non-ASCII characters. Nothing is assumed about forgery or collisions. -/
structure Prims.Good (P : Prims) : Prop where
  sha256_len : ∀ x, (P.sha256 x).length = 32
  sha512_len : ∀ x, (P.sha512 x).length = 64
  aes : P.aes.Good
  edPub_len : ∀ k, (P.edPub k).length = 32
  sign_verify : ∀ k m, P.verify (P.edPub k) m (P.sign k m) = true
  dhPub_len : ∀ k, (P.dhPub k).length = 32
  parse_msg : ∀ m : Message, m.Ascii → P.parseMsg (P.msgJSON m) = some m
  parse_anchor : ∀ a : Anchor, a.Ascii → P.parseAnchor (P.anchorJSON a) = some a

/-- Errors (errors.go and the anonymous ones of uid.go, keyinit.go). -/
inductive Err where
  | base64 | keySize | selfSig | userSig | nonceSig | increment | mismatch | srvSig | json
  | times | expired | future | repoURI | sigKeyHash | keyInitSig | anchor | keyEntry
  | rand | identity | lastEntry | suite | function | hash | pubkey
  | version | address | bothSigs | forwardsec | pubkeys | escrow | repouris | chainlink | msgcount
  deriving DecidableEq, Repr

/-- `DefaultCiphersuite` (keyentry.go:26). -/
def defaultSuite : Str := lit "NACL HKDF AES256-CTR SHA512-HMAC ED25519 ECDHE25519"

/-- base64.Decode with its error. -/
def unb64 (s : Str) : Res Err Bytes :=
  match Base64.decode s with
  | some b => .ok b
  | none => .err .base64

/-- Decode the public key, `SetPublicKey` (ed25519.go:45-54), decode the
signature: the common part of the verification functions. Order of the two
decodings as in uid.go:445-456. -/
def sigAndKey (sig pub : Str) : Res Err (Bytes × Bytes) := do
  let s ← unb64 sig
  let pk ← unb64 pub
  if pk.length ≠ 32 then .err .keySize else .ok (s, pk)

/-- `VerifySelfSig` (uid.go:440-462). -/
def verifySelfSig (P : Prims) (m : Message) : Res Err Unit := do
  let (sig, pk) ← sigAndKey m.selfSig m.content.sigkey.pubkey
  if P.verify pk (P.contentJSON m.content) sig then .ok () else .err .selfSig

/-- `VerifyUserSig` (uid.go:465-491). -/
def verifyUserSig (P : Prims) (m pre : Message) : Res Err Unit :=
  if pre.content.msgcount + 1 ≠ m.content.msgcount then .err .increment else do
  let (sig, pk) ← sigAndKey m.userSig pre.content.sigkey.pubkey
  if P.verify pk (P.contentJSON m.content) sig then .ok () else .err .userSig

/-- `initSigKey` (keyentry.go:115-128) from 32 random bytes; `none` is a failing
random reader. Returns the entry and the private key. -/
def initSigKey (P : Prims) (rand : Option Bytes) : Res Err (KeyEntry × Bytes) :=
  match rand with
  | none => .err .rand
  | some r =>
    let priv := P.edPriv r
    let pub := P.edPub priv
    .ok (⟨defaultSuite, lit "ED25519", Base64.encode (P.sha512 pub), Base64.encode pub⟩, priv)

/-- `InitDHKey` (keyentry.go:98-111). -/
def initDHKey (P : Prims) (rand : Option Bytes) : Res Err (KeyEntry × Bytes) :=
  match rand with
  | none => .err .rand
  | some r =>
    let pub := P.dhPub r
    .ok (⟨defaultSuite, lit "ECDHE25519", Base64.encode (P.sha512 pub), Base64.encode pub⟩, r)

/-- PFS preferences (uid.go:45-65). -/
inductive Pfs where
  | mandatory | strict | optional
  deriving DecidableEq, Repr

def Pfs.string : Pfs → Str
  | .mandatory => lit "mandatory"
  | .strict => lit "strict"
  | .optional => lit "optional"

/-- `identity.Split` on bytes: exactly one '@' (identity.go:164-170). -/
def splitId (id : Str) : Option (Str × Str) :=
  if (id.filter (· = 64)).length = 1 then
    some (id.takeWhile (· ≠ 64), (id.dropWhile (· ≠ 64)).tail)
  else none

/-- `lp, domain, _ := identity.Split(id)`: empty strings on error. -/
def splitId' (id : Str) : Str × Str := (splitId id).getD ([], [])

/-- The LASTENTRY test for local parts other than "keyserver" (uid.go:172-177,
276-282). -/
def checkLastEntry (id lastEntry : Str) : Res Err Unit :=
  if (splitId' id).1 ≠ lit "keyserver" then
    match splitEntry lastEntry with
    | .ok _ => .ok ()
    | _ => .err .lastEntry
  else .ok ()

/-- The optional escrow key of `Create` (uid.go:163-168). -/
def escrowKey (P : Prims) (sigescrow : Bool) (rand : Option Bytes) : Res Err (Option KeyEntry) :=
  match sigescrow, initSigKey P rand with
  | false, _ => .ok none
  | true, .ok (k, _) => .ok (some k)
  | true, .err e => .err e
  | true, .panic => .panic

/-- The content that `Create` assembles (uid.go:144-187). -/
def newContent (userID mix nym : Str) (pfs : Pfs) (lastEntry : Str) (later : UInt64)
    (sigkey dh : KeyEntry) (escrow : Option KeyEntry) : Content :=
  { version := lit "1.0", msgcount := 0, notafter := later, notbefore := 0
    mixaddress := if pfs = .optional then mix else []
    nymaddress := if pfs = .optional then nym else []
    identity := userID, sigkey := sigkey, pubkeys := [dh], sigescrow := escrow
    lastentry := lastEntry, repouris := [(splitId' userID).2]
    prefs := ⟨pfs.string, [defaultSuite]⟩, chainlink := none }

/-- `Create` (uid.go:130-199). `later` is the time one year from now, the three
random values are read in this order. -/
def create (P : Prims) (userID : Str) (sigescrow : Bool) (mix nym : Str) (pfs : Pfs)
    (lastEntry : Str) (later : UInt64) (r1 r2 r3 : Option Bytes) : Res Err Owned :=
  if P.isMapped userID = false then .err .identity else
  initSigKey P r1 >>= fun sk =>
  initDHKey P r2 >>= fun dh =>
  escrowKey P sigescrow r3 >>= fun escrow =>
  checkLastEntry userID lastEntry >>= fun _ =>
  let content := newContent userID mix nym pfs lastEntry later sk.1 dh.1 escrow
  .ok ⟨⟨content, [], [], Base64.encode (P.sign sk.2 (P.contentJSON content)), []⟩,
    some sk.2, some dh.2⟩

/-- The zero-value test on SIGESCROW (uid.go:219-226). -/
def escrowZero : Option KeyEntry → Bool
  | none => true
  | some k => k.ciphersuite = [] && k.function = [] && k.hash = [] && k.pubkey = []

/-- `checkV1_0` (uid.go:201-242). The comparison of CHAINLINK compares a pointer
with a struct and is always unequal, so every link is refused (uid.go:236-240). -/
def checkV1 (c : Content) : Res Err Unit :=
  if c.prefs.forwardsec ≠ Pfs.strict.string then .err .forwardsec else
  match c.pubkeys with
  | [k] =>
    if k.ciphersuite ≠ defaultSuite then .err .suite else
    if k.function ≠ lit "ECDHE25519" then .err .function else
    if escrowZero c.sigescrow = false then .err .escrow else
    if c.repouris ≠ [(splitId' c.identity).2] then .err .repouris else
    if c.chainlink.isSome then .err .chainlink else .ok ()
  | _ => .err .pubkeys

/-- `Check` (uid.go:245-290). -/
def check (P : Prims) (m : Message) : Res Err Unit :=
  let c := m.content
  if c.version ≠ lit "1.0" then .err .version else
  if c.prefs.forwardsec ≠ Pfs.optional.string ∧ c.mixaddress ≠ [] then .err .address else
  if c.prefs.forwardsec ≠ Pfs.optional.string ∧ c.nymaddress ≠ [] then .err .address else
  if P.isMapped c.identity = false then .err .identity else
  if c.sigkey.ciphersuite ≠ defaultSuite then .err .suite else
  if c.sigkey.function ≠ lit "ED25519" then .err .function else do
  let _ ← checkLastEntry c.identity c.lastentry
  if m.escrowSig ≠ [] ∧ m.userSig ≠ [] then .err .bothSigs else
  checkV1 c

/-- `Update` (uid.go:571-592). The copy shares PUBKEYS with the original, and
setting its own private key again changes nothing. -/
def update (P : Prims) (o : Owned) (rand : Option Bytes) : Res Err Owned := do
  let (sigkey, sigPriv) ← initSigKey P rand
  match o.msg.content.pubkeys.head?, o.encPriv with
  | some k, some _ =>
    if k.function ≠ lit "ECDHE25519" then .panic else
    match o.sigPriv with
    | none => .panic
    | some prev =>
      let content := { o.msg.content with msgcount := o.msg.content.msgcount + 1, sigkey := sigkey }
      let self := Base64.encode (P.sign sigPriv (P.contentJSON content))
      let user := Base64.encode (P.sign prev (P.contentJSON content))
      .ok ⟨{ o.msg with content := content, selfSig := self, userSig := user }, some sigPriv, o.encPriv⟩
  | _, _ => .panic

/-- `Encrypt` (uid.go:293-306): hash, index and encrypted message. `iv` is what
the random reader delivers. -/
def encrypt (P : Prims) (m : Message) (iv : Bytes) : Res Err (Bytes × Bytes × Str) :=
  let uidHash := P.sha256 (P.msgJSON m)
  let uidIndex := P.sha256 uidHash
  match Cipher.ctrEncrypt P.aes uidHash (P.msgJSON m) iv with
  | .ok enc => .ok (uidHash, uidIndex, Base64.encode (uidIndex ++ enc))
  | _ => .panic

/-- `CreateReply` (uid.go:364-384). -/
def createReply (P : Prims) (enc hcEntry : Str) (hcPos : UInt64) (srvPriv : Bytes) : Reply :=
  let entry : Entry := ⟨enc, hcEntry, hcPos⟩
  ⟨entry, Base64.encode (P.sign srvPriv (P.entryJSON entry))⟩

/-- `MessageReply.Decrypt` (uid.go:623-636): the slice expressions panic on less
than 32 bytes, CTRDecrypt on less than 16 more. -/
def replyDecrypt (P : Prims) (r : Reply) (uidHash : Bytes) : Res Err (Bytes × Message) :=
  match Base64.decode r.entry.uidMessageEncrypted with
  | none => .err .base64
  | some raw =>
    if raw.length < 32 then .panic else
    match Cipher.ctrDecrypt P.aes uidHash (raw.drop 32) with
    | .ok txt => match P.parseMsg txt with
      | some m => .ok (raw.take 32, m)
      | none => .err .json
    | _ => .panic

/-- `VerifySrvSig` (uid.go:639-674). The call of Encrypt only serves to get hash
and index. The second comparison compares the decrypted message with itself
(uid.go:642 shadows `msg`), written out here. -/
def verifySrvSig (P : Prims) (r : Reply) (m : Message) (srvPub : Str) : Res Err Unit := do
  let uidHash := P.sha256 (P.msgJSON m)
  let uidIndex := P.sha256 uidHash
  let (idx, m) ← replyDecrypt P r uidHash
  if idx ≠ uidIndex then .err .mismatch else
  if P.msgJSON m ≠ P.msgJSON m then .err .mismatch else do
  let (sig, pk) ← sigAndKey r.serverSig srvPub
  if P.verify pk (P.entryJSON r.entry) sig then .ok () else .err .srvSig

/-- `VerifyNonce` (uid.go:602-619) and `SignNonce` (595-599); the nonce bytes are
`encode.ToByte8`. -/
def verifyNonce (P : Prims) (sigPub : Str) (nonceBytes : Bytes) (sig : Str) : Res Err Unit := do
  let (s, pk) ← sigAndKey sig sigPub
  if P.verify pk nonceBytes s then .ok () else .err .nonceSig

/-! ### keyentry.go, keyinit.go -/

/-- `KeyEntry.Verify` (keyentry.go:62-92); "ED25510" is the code's spelling. -/
def keyEntryVerify (P : Prims) (k : KeyEntry) : Res Err Unit :=
  if k.ciphersuite ≠ defaultSuite then .err .suite else
  if k.function ≠ lit "ED25510" ∧ k.function ≠ lit "ECDHE25519" then .err .function else
  match Base64.decode k.hash with
  | none => .err .hash
  | some h =>
    if h.length ≠ 64 then .err .hash else
    match Base64.decode k.pubkey with
    | none => .err .pubkey
    | some pk =>
      if pk.length ≠ 32 then .err .pubkey else
      if P.sha512 pk ≠ h then .err .hash else .ok ()

/-- `MaxNotAfter` (keyinit.go:46). -/
def maxNotAfter : UInt64 := 7776000

/-- `SessionAnchor.KeyEntry` (keyinit.go:79-87). -/
def anchorKey (a : Anchor) (function : Str) : Res Err KeyEntry :=
  match a.pfkeys.find? (·.function = function) with
  | some k => .ok k
  | none => .err .keyEntry

/-- `KeyInit.SessionAnchor` (keyinit.go:114-140). -/
def sessionAnchor (P : Prims) (ki : KeyInit) (sigPub : Str) : Res Err Anchor := do
  let pk ← unb64 sigPub
  let keyHash := P.sha512 pk
  if ki.contents.sigkeyhash ≠ Base64.encode (P.sha512 keyHash) then .err .sigKeyHash else do
  let enc ← unb64 ki.contents.sessionanchor
  match Cipher.ctrDecrypt P.aes (keyHash.take 32) enc with
  | .ok txt => match P.parseAnchor txt with
    | none => .err .json
    | some sa =>
      if ki.contents.sessionanchorhash ≠ Base64.encode (P.sha512 (P.anchorJSON sa)) then .err .anchor
      else .ok sa
  | _ => .panic

/-- The signature test of `KeyInit.Verify` and of `KeyInit.VerifySrvSig`: the
error of SetPublicKey is ignored, so ed25519.Verify panics on a key of the wrong
size (keyinit.go:203-206, 228-234). -/
def verifyUnchecked (P : Prims) (msg : Bytes) (sig pub : Str) (e : Err) : Res Err Unit := do
  let s ← unb64 sig
  let pk ← unb64 pub
  if pk.length ≠ 32 then .panic else
  if P.verify pk msg s then .ok () else .err e

/-- `KeyInit.Verify` (keyinit.go:158-212) at time `now`. -/
def keyInitVerify (P : Prims) (now : UInt64) (ki : KeyInit) (uris : List Str) (sigPub : Str) :
    Res Err Unit :=
  if uris.contains ki.contents.repouri = false then .err .repoURI else do
  let sa ← sessionAnchor P ki sigPub
  let ke ← anchorKey sa (lit "ECDHE25519")
  let _ ← keyEntryVerify P ke
  if ki.contents.notbefore ≥ ki.contents.notafter then .err .times else
  if ki.contents.notafter < now then .err .expired else
  verifyUnchecked P (P.kiContentsJSON ki.contents) ki.signature sigPub .keyInitSig

/-- `Message.KeyInit` (keyinit.go:268-322) with `Message.sessionAnchor`
(241-258); `now` is the time, `r` the random bytes of the key, `iv` those of the
encryption. Returns the message, the hash of the new public key and the private
key. -/
def keyInit (P : Prims) (now : UInt64) (o : Owned) (msgcount notafter notbefore : UInt64)
    (fallback : Bool) (repoURI mix nym : Str) (r : Option Bytes) (iv : Bytes) :
    Res Err (KeyInit × Str × Str) :=
  if notbefore ≥ notafter then .err .times else
  if notafter < now then .err .expired else
  if notafter > now + maxNotAfter then .err .future else do
  let keyHash ← unb64 o.msg.content.sigkey.hash
  match o.msg.content.repouris with
  | [] => .panic
  | first :: _ =>
    if repoURI ≠ first then .err .repouris else do
    let (dh, priv) ← initDHKey P r
    let sa : Anchor := ⟨mix, nym, [dh]⟩
    let jsn := P.anchorJSON sa
    if keyHash.length < 32 then .panic else
    match Cipher.ctrEncrypt P.aes (keyHash.take 32) jsn iv with
    | .ok enc =>
      let contents : KIContents :=
        { version := lit "1.0", msgcount := msgcount, notafter := notafter, notbefore := notbefore
          fallback := fallback, sigkeyhash := Base64.encode (P.sha512 keyHash), repouri := repoURI
          sessionanchor := Base64.encode enc
          sessionanchorhash := Base64.encode (P.sha512 jsn) }
      match o.sigPriv with
      | none => .panic
      | some k =>
        .ok (⟨contents, Base64.encode (P.sign k (P.kiContentsJSON contents))⟩, dh.hash,
          Base64.encode priv)
    | _ => .panic

/-- `KeyInit.Check` (keyinit.go:324-341). -/
def keyInitCheck (ki : KeyInit) : Res Err Unit :=
  if ki.contents.version ≠ lit "1.0" then .err .version else
  if ki.contents.msgcount ≠ 0 then .err .msgcount else .ok ()

/-- `KeyInit.VerifySrvSig` (keyinit.go:220-239). -/
def keyInitVerifySrvSig (P : Prims) (ki : KeyInit) (sig srvPub : Str) : Res Err Unit :=
  verifyUnchecked P (P.kiJSON ki) sig srvPub .srvSig

end Verif.Uid

import Verif.Wire.Model
/-
Vocabulary of the messaging core: cryptographic primitives as parameters, key
entries, session state, and the session store interface as the effects a
program can perform.
-/
namespace Verif.Msg

/-- A Go string, as its bytes. -/
abbrev Str := Bytes

/-- FUNCTION of a key entry, classified by the strings the code compares with:
"ECDHE25519", "ED25519", "ED25510" (uid/keyentry.go:68) and anything else. -/
inductive Func where
  | ecdhe | ed25519 | ed25510 | other
  deriving DecidableEq, Repr

/-- uid/keyentry.go:29-38, `KeyEntry`.  `suiteOk` is CIPHERSUITE ==
DefaultCiphersuite; `priv` is the private key, if set. The cached decoded public
key is not modelled, it is recomputed from PUBKEY. -/
structure KeyEntry where
  suiteOk : Bool
  func : Func
  hash : Str
  pubkey : Str
  priv : Option Bytes
  deriving DecidableEq, Repr

/-- The parts of a uid.Message (uid/uid.go:72-104) messaging uses: IDENTITY,
PUBKEYS[0], SIGKEY and the JSON form. -/
structure UID where
  identity : Str
  pubKey : KeyEntry
  sigKey : KeyEntry
  json : Str
  deriving DecidableEq, Repr

/-- msg/header.go:42-60, `header`; the constant fields Ciphersuite and MaxDelay
are left out. -/
structure Header where
  recipientPubHash : Str
  recipientTempHash : Str
  senderIdentity : Str
  senderSessionPub : KeyEntry
  senderIdentityPubHash : Str
  senderIdentityPub : KeyEntry
  nextSenderSessionPub : Option KeyEntry
  nextRecipientSessionPubSeen : Option KeyEntry
  nymAddress : Str
  senderSessionCount : UInt64
  senderMessageCount : UInt64
  senderUID : Str
  senderLastKeychainHash : Str
  status : UInt8
  padding : Str
  deriving DecidableEq, Repr

/-- Cryptographic primitives and codecs the code calls. -/
structure Prims where
  /-- cipher.SHA512 -/
  sha512 : Bytes → Bytes
  /-- cipher.HMAC(key, buffer) -/
  hmac : Bytes → Bytes → Bytes
  /-- first n bytes of hkdf.New(sha512.New, secret, nil, nil) -/
  hkdf : Bytes → Nat → Bytes
  /-- encode/base64 Encode and Decode -/
  b64 : Bytes → Str
  unb64 : Str → Option Bytes
  /-- curve25519.ScalarMult(priv, pub) and ScalarBaseMult(priv) -/
  dh : Bytes → Bytes → Bytes
  dhPub : Bytes → Bytes
  /-- box.Seal(msg, nonce, peerPub, priv) and box.Open -/
  boxSeal : Bytes → Bytes → Bytes → Bytes → Bytes
  boxOpen : Bytes → Bytes → Bytes → Bytes → Option Bytes
  /-- AES-256-CTR key stream byte number i for key and IV -/
  ks : Bytes → Bytes → Nat → UInt8
  /-- public key of an Ed25519 private key, ed25519.Sign(priv, msg),
  ed25519.Verify(pub, msg, sig) -/
  edPub : Bytes → Bytes
  sign : Bytes → Bytes → Bytes
  verify : Bytes → Bytes → Bytes → Bool
  /-- json.Marshal / json.Unmarshal of headers; json.Unmarshal of UID messages -/
  marshal : Header → Bytes
  parse : Bytes → Option Header
  parseUID : Str → Option UID

/-- The laws assumed of the primitives: output sizes, decoding undoes encoding,
Diffie–Hellman commutes, opening undoes sealing, signatures verify. -/
structure Prims.Good (P : Prims) : Prop where
  sha512_len : ∀ x, (P.sha512 x).length = 64
  hmac_len : ∀ k x, (P.hmac k x).length = 64
  hkdf_len : ∀ s n, (P.hkdf s n).length = n
  unb64_b64 : ∀ x, P.unb64 (P.b64 x) = some x
  b64_len : ∀ x, (P.b64 x).length = 4 * ((x.length + 2) / 3)
  dhPub_len : ∀ a, (P.dhPub a).length = 32
  dh_comm : ∀ a b, P.dh a (P.dhPub b) = P.dh b (P.dhPub a)
  box : ∀ m n a b, P.boxOpen (P.boxSeal m n (P.dhPub b) a) n (P.dhPub a) b = some m
  box_len : ∀ m n p k, (P.boxSeal m n p k).length = m.length + 16
  sign_len : ∀ k m, (P.sign k m).length = 64
  sign_verify : ∀ k m, P.verify (P.edPub k) m (P.sign k m) = true

/-- msg/session/session.go:15-25, `State`. -/
structure State where
  senderSessionCount : UInt64
  senderMessageCount : UInt64
  maxRecipientCount : UInt64
  recipientTemp : KeyEntry
  senderSessionPub : KeyEntry
  nextSenderSessionPub : Option KeyEntry
  nextRecipientSessionPubSeen : Option KeyEntry
  nymAddress : Str
  keyInitSession : Bool
  deriving DecidableEq, Repr

/-- Errors a session store returns. -/
inductive SErr where
  | noSession | outOfBounds | keyUsed | cannotDecode | wrongLength | lengths
  | noKeyEntry | other
  deriving DecidableEq, Repr

/-- Calls of the session.Store interface (msg/session/session.go:64-112) that
package msg makes, and the Write on args.Writer.  The index is the result type.
`getPub` takes the identity of the UID message; the JSON argument of
AddSessionKey is the key entry itself. -/
inductive Req : Type → Type where
  | getState (k : Str) : Req (Except SErr (Option State))
  | setState (k : Str) (s : State) : Req (Except SErr Unit)
  | storeSession (k root chain : Str) (send recv : List Str) : Req (Except SErr Unit)
  | hasSession (k : Str) : Req Bool
  | getPriv (hash : Str) : Req (Except SErr KeyEntry)
  | getPub (identity : Str) : Req (Except SErr (KeyEntry × Str))
  | getMsgKey (k : Str) (sender : Bool) (i : UInt64) : Req (Except SErr Bytes)
  | numKeys (k : Str) : Req (Except SErr UInt64)
  | getRootHash (k : Str) : Req (Except SErr Bytes)
  | getChain (k : Str) : Req (Except SErr Bytes)
  | delMsgKey (k : Str) (sender : Bool) (i : UInt64) : Req (Except SErr Unit)
  | addSKey (hash : Str) (ke : KeyEntry) (priv : Str) : Req (Except SErr Unit)
  | getSKey (hash : Str) : Req (Except SErr (KeyEntry × Str))
  | delSKey (hash : Str) : Req (Except SErr Unit)
  | write (b : Bytes) : Req Unit

/-- Errors of Encrypt and Decrypt (msg/errors.go and inline errors). -/
inductive Err where
  | wire (e : Wire.Err)
  | store (e : SErr)
  | headerPubLen | notEncryptedHeader | wrongCount | noPreHeaderKey | badHeader
  | keyEntry | reflection | tooManyKeys | notCryptoSetup | wrongCryptoSetup
  | notEncryptedPacket | notData | notSignature | wrongSigLen | notPadding
  | badUID | badSignature | notHMAC | hmacsDiffer | contentTooLong | headerLen
  | outLen | lastHashLen
  deriving DecidableEq, Repr

/-- A Go function that uses a store: returns, fails, panics or makes a call. -/
inductive Prog (α : Type) : Type 1 where
  | ret (a : α)
  | fail (e : Err)
  | panic
  | call {β : Type} (r : Req β) (k : β → Prog α)

namespace Prog

def bind {α β : Type} : Prog α → (α → Prog β) → Prog β
  | ret a, f => f a
  | fail e, _ => fail e
  | panic, _ => panic
  | call r k, f => call r (fun b => bind (k b) f)

instance : Monad Prog where
  pure := ret
  bind := bind

/-- Make a call and propagate its error (`if err != nil { return err }`). -/
def ask {α : Type} (r : Req (Except SErr α)) : Prog α :=
  call r fun
    | .ok a => ret a
    | .error e => fail (.store e)

/-- Make a call and hand its error to the caller. -/
def try' {β : Type} (r : Req β) : Prog β := call r ret

/-- Lift a pure result with framing errors. -/
def wire {α : Type} : Res Wire.Err α → Prog α
  | .ok a => ret a
  | .err e => fail (.wire e)
  | .panic => panic

/-- Run a program against a store with handler `h`. -/
def run {σ α : Type} (h : {β : Type} → Req β → σ → β × σ) : Prog α → σ → Res Err α × σ
  | ret a, s => (.ok a, s)
  | fail e, s => (.err e, s)
  | panic, s => (.panic, s)
  | call r k, s => run h (k (h r s).1) (h r s).2

end Prog

/-- Guard: `if c { return err }`. -/
def failIf (c : Bool) (e : Err) : Prog Unit := if c then .fail e else .ret ()

/-- A panic when the value is missing (nil dereference, `panic(...)`). -/
def orPanic {α : Type} : Option α → Prog α
  | some a => .ret a
  | none => .panic

/-! ### Key entries -/

/-- uid/keyentry.go:146-174, `PublicKey32` followed by a dereference: `none`
where the Go code panics (undecodable key, unknown function, nil key after a
wrong length). -/
def KeyEntry.pub32 (P : Prims) (ke : KeyEntry) : Option Bytes :=
  match P.unb64 ke.pubkey with
  | none => none
  | some pk =>
    if pk.length = 32 ∧ (ke.func = .ecdhe ∨ ke.func = .ed25519) then some pk else none

/-- uid/keyentry.go:177-187, `PrivateKey32`: `none` where the Go code panics. -/
def KeyEntry.priv32 (ke : KeyEntry) : Option Bytes :=
  if ke.func = .ecdhe then ke.priv else none

/-- uid/keyentry.go:62-92, `Verify`. -/
def KeyEntry.verify (P : Prims) (ke : KeyEntry) : Bool :=
  ke.suiteOk && (ke.func == .ed25510 || ke.func == .ecdhe) &&
    (match P.unb64 ke.hash with
     | none => false
     | some h => h.length == 64 &&
       (match P.unb64 ke.pubkey with
        | none => false
        | some pk => pk.length == 32 && P.sha512 pk == h))

/-- uid/keyentry.go:98-111, `InitDHKey` from the private key drawn from rand. -/
def initDHKey (P : Prims) (priv : Bytes) : KeyEntry :=
  { suiteOk := true, func := .ecdhe, hash := P.b64 (P.sha512 (P.dhPub priv)),
    pubkey := P.b64 (P.dhPub priv), priv := some priv }

/-- The exported fields of a key entry, which is what JSON encoding keeps. -/
def KeyEntry.public (ke : KeyEntry) : KeyEntry := { ke with priv := none }

/-! ### Session keys -/

/-- msg/session/session.go:116-119, `CalcStateKey`. -/
def calcStateKey (P : Prims) (a b : Bytes) : Str := P.b64 (P.sha512 (a ++ b))

/-- msg/session/session.go:123-132, `CalcKey`. -/
def calcKey (P : Prims) (senderID recipientID senderSession recipientSession : Str) : Str :=
  P.b64 (P.sha512 (senderID ++ recipientID ++ (senderSession ++ recipientSession)))

/-- msg/session.go:15-18, `addSessionKey`; the cleanup time is not modelled. -/
def addSessionKey (P : Prims) (ke : KeyEntry) : Prog Unit := do
  let p ← orPanic ke.priv32
  Prog.ask (.addSKey ke.hash ke.public (P.b64 p))

/-- msg/session.go:20-35, `getSessionKey`. -/
def getSessionKey (P : Prims) (hash : Str) : Prog KeyEntry := do
  let (ke, privKey) ← Prog.ask (.getSKey hash)
  if privKey = [] then .ret ke else
  match P.unb64 privKey with
  | none => .fail .keyEntry
  | some k =>
    if ke.func = .ecdhe then
      if k.length = 32 then .ret { ke with priv := some k } else .fail .keyEntry
    else if ke.func = .ed25519 then
      if k.length = 64 then .ret { ke with priv := some k } else .fail .keyEntry
    else .fail .keyEntry

/-- msg/session.go:37-59, `setNextSenderSessionPub`: the new state and the key;
`fresh` is the private key drawn from rand. -/
def setNextSenderSessionPub (P : Prims) (ss : State) (stateKey : Str) (fresh : Bytes) :
    Prog (State × KeyEntry) := do
  let ke := initDHKey P fresh
  addSessionKey P ke
  let ss' := { ss with nextSenderSessionPub := some ke }
  Prog.ask (.setState stateKey ss')
  .ret (ss', ke)

end Verif.Msg

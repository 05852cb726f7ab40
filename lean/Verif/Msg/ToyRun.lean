import Verif.Msg.DecLemmas
/-
A concrete signed message that `decrypt` accepts under the toy primitives; used
to show that theorems about successful runs are not vacuous.
-/
namespace Verif.Msg.Toy
open Prog
open Wire (Outer newOuter newInner)

def sigPub : Bytes := List.replicate 32 9

def uidT : UID :=
  { identity := [98, 111, 98], pubKey := initDHKey P0 [1], json := [1],
    sigKey := { suiteOk := true, func := .ed25519, hash := [], pubkey := Base64.encode sigPub, priv := none } }

def headerT : Header :=
  { header0 with
    recipientTempHash := (initDHKey P0 [4]).hash, senderIdentity := [97, 108, 105],
    senderSessionPub := (initDHKey P0 [2]).public, senderIdentityPub := (initDHKey P0 [3]).public }

def PT : Prims := prims headerT uidT

theorem PT_good : PT.Good := good _ _

def mkT : Bytes := List.replicate 64 5

def stateT : State :=
  { senderSessionCount := 0, senderMessageCount := 0, maxRecipientCount := 0,
    recipientTemp := headerT.senderSessionPub, senderSessionPub := initDHKey P0 [4],
    nextSenderSessionPub := none, nextRecipientSessionPubSeen := none,
    nymAddress := [], keyInitSession := false }

/-- A store with one session of one message key in each direction. -/
def storeT : MemStore :=
  { MemStore.new with
    states := upd (fun _ => none)
      (calcStateKey PT (fit 32 [1]) (fit 32 [3])) (some stateT)
    sessions := upd (fun _ => none) (decSessionKey PT uidT headerT)
      (some { root := Base64.encode (List.replicate 64 0), chain := Base64.encode (List.replicate 32 0),
              send := [Base64.encode mkT], recv := [Base64.encode mkT] }) }

def contentT : Bytes := [104, 105]

def p1T : Outer := newOuter Wire.encryptedHeader 1
  (List.replicate 24 0 ++ be16 20 ++ List.replicate 20 0)
def p2T : Outer := newOuter Wire.cryptoSetup 2 (List.replicate 16 0)
def p3T : Outer := newOuter Wire.encryptedPacket 3
  (newInner (Wire.dataType ||| Wire.signType) false contentT).write
def p4T : Outer := newOuter Wire.encryptedPacket 4
  (newInner Wire.signatureType false (PT.sign sigPub (PT.sha512 contentT))).write
def tagT : Bytes := PT.hmac (deriveSymmetricKeys PT mkT).2
  (p2T.write true ++ p3T.write true ++ p4T.write true ++
    (newOuter Wire.hmacPacket 5 (List.replicate 64 0)).write false)
def p5T : Outer := newOuter Wire.hmacPacket 5 tagT

def argsT : DecArgs :=
  { identities := [uidT], preHeader := (Wire.newPre (fit 32 [7])).write,
    reader := p1T.write true ++ bodyBytes p2T p3T p4T p5T, numOfKeys := 0, fresh := [8] }

/-- The message is accepted, and its content was written. -/
theorem accepted : ∃ sig st', (decrypt PT argsT).run (MemStore.handle PT) storeT =
    (.ok (headerT.senderIdentity, sig), st') ∧ sig ≠ [] ∧ st'.out = contentT := by
  have h1 : ((decrypt PT argsT).run (MemStore.handle PT) storeT).1 =
      .ok (headerT.senderIdentity, PT.b64 (PT.sign sigPub (PT.sha512 contentT))) := by
    decide +kernel
  have h2 : ((decrypt PT argsT).run (MemStore.handle PT) storeT).2.out = contentT := by
    decide +kernel
  have h3 : PT.b64 (PT.sign sigPub (PT.sha512 contentT)) ≠ [] := by decide +kernel
  generalize PT.b64 (PT.sign sigPub (PT.sha512 contentT)) = sig at h1 h3
  generalize (decrypt PT argsT).run (MemStore.handle PT) storeT = x at h1 h2
  obtain ⟨x1, x2⟩ := x
  subst h1
  exact ⟨sig, x2, rfl, h3, h2⟩

end Verif.Msg.Toy

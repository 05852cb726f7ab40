import Verif.Msg.Base
import Verif.Util.Base64
/-
A concrete, cryptographically useless instance of the primitives that satisfies
all assumed laws.  It only serves to show that hypotheses of theorems can be met.
-/
namespace Verif.Msg.Toy

/-- A checksum of all bytes. -/
def check (x : Bytes) : Bytes :=
  let h := x.foldl (fun h b => (h * 31 + b.toNat) % 4294967296) 7
  [UInt8.ofNat h, UInt8.ofNat (h / 256), UInt8.ofNat (h / 65536), UInt8.ofNat (h / 16777216)]

/-- Pad or cut to n bytes. -/
def fit (n : Nat) (x : Bytes) : Bytes := (x ++ List.replicate n 0).take n

theorem fit_length (n : Nat) (x : Bytes) : (fit n x).length = n := by
  simp [fit]

theorem fit_fit (n : Nat) (x : Bytes) : fit n (fit n x) = fit n x := by
  have h := fit_length n x
  unfold fit at h ⊢
  rw [List.take_append_of_le_length (by rw [h]; exact Nat.le_refl _)]
  rw [List.take_of_length_le (by rw [h]; exact Nat.le_refl _)]

/-- The toy primitives; `h0` and `uid0` are what the parsers return. -/
def prims (h0 : Header) (uid0 : UID) : Prims where
  sha512 := fun x => fit 64 (check x ++ x)
  hmac k x := fit 64 (x.drop 8 ++ k)
  hkdf s n := fit n s
  b64 := Base64.encode
  unb64 := Base64.decode
  dh a b := List.zipWith (· ^^^ ·) (fit 32 a) (fit 32 b)
  dhPub := fit 32
  boxSeal m _ _ _ := m ++ List.replicate 16 0
  boxOpen c _ _ _ := some (c.take (c.length - 16))
  ks _ _ _ := 0
  edPub k := k
  sign k m := fit 64 (k ++ m)
  verify k m s := s == fit 64 (k ++ m)
  marshal _ := List.replicate 7152 0
  parse _ := some h0
  parseUID _ := some uid0

theorem good (h0 : Header) (uid0 : UID) : (prims h0 uid0).Good where
  sha512_len := fun _ => fit_length 64 _
  hmac_len _ _ := fit_length 64 _
  hkdf_len _ _ := fit_length _ _
  unb64_b64 := Base64.decode_encode
  b64_len x := by
    show (Base64.encode x).length = _
    rw [Base64.encode_length, Nat.mul_comm]
  dhPub_len := fit_length 32
  dh_comm a b := by
    simp only [prims, fit_fit]
    rw [List.zipWith_comm]
    congr; funext x y; exact UInt8.xor_comm y x
  box m n a b := by
    show some ((m ++ List.replicate 16 0).take ((m ++ List.replicate 16 0).length - 16)) = some m
    simp
  box_len m n p k := by
    show (m ++ List.replicate 16 0).length = m.length + 16
    rw [List.length_append, List.length_replicate]
  sign_len _ _ := fit_length 64 _
  sign_verify k m := by
    show (fit 64 (k ++ m) == fit 64 (k ++ m)) = true
    simp

def key0 : KeyEntry :=
  { suiteOk := true, func := .ecdhe, hash := [], pubkey := [], priv := none }

def header0 : Header :=
  { recipientPubHash := [], recipientTempHash := [], senderIdentity := [],
    senderSessionPub := key0, senderIdentityPubHash := [], senderIdentityPub := key0,
    nextSenderSessionPub := none, nextRecipientSessionPubSeen := none, nymAddress := [],
    senderSessionCount := 0, senderMessageCount := 0, senderUID := [],
    senderLastKeychainHash := [], status := 0, padding := [] }

def uid0 : UID := { identity := [], pubKey := key0, sigKey := key0, json := [] }

/-- A default instance. -/
def P0 : Prims := prims header0 uid0

theorem P0_good : P0.Good := good _ _

end Verif.Msg.Toy

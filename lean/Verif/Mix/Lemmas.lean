/-
Lemmas about the mix model: round trips of the ASN.1 structures and of nym encryption.
-/
import Verif.Mix.Model

namespace Verif.Mix
open Verif.Asn1

theorem tlv_length_ge (t : UInt8) (c : Bytes) : c.length + 2 ≤ (tlv t c).length := by
  have h2 : 1 ≤ (encLen c.length).length := by unfold encLen; split <;> simp
  unfold tlv
  simp only [List.length_cons, List.length_append]
  omega

theorem ofOpt_some {α : Type} (e : Err) (a : α) : ofOpt e (some a) = .ok a := rfl
theorem ofOpt_eq_ok {α : Type} {e : Err} {x : Option α} {a : α} : ofOpt e x = .ok a ↔ x = some a := by
  cases x <;> simp [ofOpt]
theorem ofOpt_ne_panic {α : Type} (e : Err) (x : Option α) : ofOpt e x ≠ .panic := by
  cases x <;> simp [ofOpt]

theorem bind_ne_panic {ε α β : Type} {x : Res ε α} {f : α → Res ε β} (hx : x ≠ .panic)
    (hf : ∀ a, x = .ok a → f a ≠ .panic) : (x >>= f) ≠ .panic := by
  cases x with
  | ok a => exact hf a rfl
  | err e => simp
  | panic => exact absurd rfl hx

theorem fix32_length (b : Bytes) : (fix32 b).length = 32 := by
  simp [fix32]; omega

theorem fix32_of_length {b : Bytes} (h : b.length = 32) : fix32 b = b := by
  simp [fix32, h, List.take_of_length_le]

theorem expandSecret_eq (P : Prims) (hP : P.Good) (n k : Bytes) : expandSecret P n k = P.hmac k n :=
  fix32_of_length (hP.hmac_len _ _)

theorem determPriv_eq (P : Prims) (hP : P.Good) (t : Template) (n k : Bytes) :
    determPriv P t n k = P.hmac t.secret (n ++ k) :=
  fix32_of_length (hP.hmac_len _ _)

/-- A 32 bit signed number. -/
def I32 (n : Int) : Prop := -2 ^ 31 ≤ n ∧ n < 2 ^ 31
/-- A 64 bit signed number. -/
def I64 (n : Int) : Prop := -2 ^ 63 ≤ n ∧ n < 2 ^ 63

theorem Hdr.parse_asn1 (h : Hdr) (h1 : I32 h.msgType) (h2 : I32 h.minDelay) (h3 : I32 h.maxDelay)
    (hl : h.asn1.length < 2 ^ 31) (rest : Bytes) :
    Hdr.parse (h.asn1 ++ rest) = some { h with token := some h.wireToken, revokeID := some h.wireRevoke } := by
  unfold Hdr.asn1 at hl ⊢
  have hc := tlv_length_ge 48 (eInt h.msgType ++ (eInt h.minDelay ++ (eInt h.maxDelay ++ (eBytes h.wireToken ++ (eBytes h.address ++ eBytes h.wireRevoke)))))
  have t1 := tlv_length_ge 4 h.wireToken
  have t2 := tlv_length_ge 4 h.address
  have t3 := tlv_length_ge 4 h.wireRevoke
  simp only [List.length_append, eBytes] at hc hl
  unfold Hdr.parse
  rw [readTLV_tlv _ _ (by simp only [List.length_append, eBytes]; omega)]
  have e := fBytes_eBytes h.wireRevoke (by omega) []
  rw [List.append_nil] at e
  simp only [Option.bind_eq_bind, Option.bind_some, fInt32_eInt _ h1, fInt32_eInt _ h2, fInt32_eInt _ h3,
    fBytes_eBytes h.wireToken (by omega), fBytes_eBytes h.address (by omega), e]
  rfl

theorem NAddr.parse_asn1 (a : NAddr) (h1 : I64 a.expire) (hl : a.asn1.length < 2 ^ 31) (rest : Bytes) :
    NAddr.parse (a.asn1 ++ rest) = some a := by
  unfold NAddr.asn1 at hl ⊢
  have hc := tlv_length_ge 48 (eBytes a.mixAddress ++ (eInt a.expire ++ (eBool a.singleUse ++ (eBytes a.tokenPubKey ++
    (eBytes a.mixPubKey ++ (eBytes a.addressKey ++ eBytes a.privateData))))))
  have t1 := tlv_length_ge 4 a.mixAddress
  have t2 := tlv_length_ge 4 a.tokenPubKey
  have t3 := tlv_length_ge 4 a.mixPubKey
  have t4 := tlv_length_ge 4 a.addressKey
  have t5 := tlv_length_ge 4 a.privateData
  simp only [List.length_append, eBytes] at hc hl
  unfold NAddr.parse
  rw [readTLV_tlv _ _ (by simp only [List.length_append, eBytes]; omega)]
  have e := fBytes_eBytes a.privateData (by omega) []
  rw [List.append_nil] at e
  simp only [Option.bind_eq_bind, Option.bind_some, fInt64_eInt _ h1, fBool_eBool, 
    fBytes_eBytes a.mixAddress (by omega), fBytes_eBytes a.tokenPubKey (by omega), fBytes_eBytes a.mixPubKey (by omega),
    fBytes_eBytes a.addressKey (by omega), e]
  rfl

theorem NPriv.parse_asn1 (a : NPriv) (h1 : I32 a.system) (h2 : I64 a.expire) (h3 : I32 a.minDelay) (h4 : I32 a.maxDelay)
    (hl : a.asn1.length < 2 ^ 31) (rest : Bytes) : NPriv.parse (a.asn1 ++ rest) = some a := by
  unfold NPriv.asn1 at hl ⊢
  have hc := tlv_length_ge 48 (eInt a.system ++ (eBytes a.address ++ (eInt a.expire ++ (eBool a.singleUse ++ (eInt a.minDelay ++
    (eInt a.maxDelay ++ (eBytes a.nonce ++ (eBytes a.receiverPub ++ (eBytes a.encNym ++ eBytes a.hmacHead)))))))))
  have t1 := tlv_length_ge 4 a.address
  have t2 := tlv_length_ge 4 a.nonce
  have t3 := tlv_length_ge 4 a.receiverPub
  have t4 := tlv_length_ge 4 a.encNym
  have t5 := tlv_length_ge 4 a.hmacHead
  simp only [List.length_append, eBytes] at hc hl
  unfold NPriv.parse
  rw [readTLV_tlv _ _ (by simp only [List.length_append, eBytes]; omega)]
  have e := fBytes_eBytes a.hmacHead (by omega) []
  rw [List.append_nil] at e
  simp only [Option.bind_eq_bind, Option.bind_some, fInt32_eInt _ h1, fInt64_eInt _ h2, fInt32_eInt _ h3, fInt32_eInt _ h4, fBool_eBool, 
    fBytes_eBytes a.address (by omega), fBytes_eBytes a.nonce (by omega), fBytes_eBytes a.receiverPub (by omega),
    fBytes_eBytes a.encNym (by omega), e]
  rfl

theorem RHdr.parse_asn1 (a : RHdr) (hl : a.asn1.length < 2 ^ 31) (rest : Bytes) : RHdr.parse (a.asn1 ++ rest) = some a := by
  unfold RHdr.asn1 at hl ⊢
  have hc := tlv_length_ge 48 (eBytes a.senderKey ++ (eBytes a.nonce ++ (eBytes a.receiverPub ++ (eBytes a.encNym ++ eBytes a.hmacHead))))
  have t1 := tlv_length_ge 4 a.senderKey
  have t2 := tlv_length_ge 4 a.nonce
  have t3 := tlv_length_ge 4 a.receiverPub
  have t4 := tlv_length_ge 4 a.encNym
  have t5 := tlv_length_ge 4 a.hmacHead
  simp only [List.length_append, eBytes] at hc hl
  unfold RHdr.parse
  rw [readTLV_tlv _ _ (by simp only [List.length_append, eBytes]; omega)]
  have e := fBytes_eBytes a.hmacHead (by omega) []
  rw [List.append_nil] at e
  simp only [Option.bind_eq_bind, Option.bind_some, 
    fBytes_eBytes a.senderKey (by omega), fBytes_eBytes a.nonce (by omega), fBytes_eBytes a.receiverPub (by omega),
    fBytes_eBytes a.encNym (by omega), e]
  rfl

/-- The private part with a public key around it is shorter than a bound on all. -/
theorem NAddr.privateData_lt (a : NAddr) : a.privateData.length < a.asn1.length := by
  unfold NAddr.asn1
  have hc := tlv_length_ge 48 (eBytes a.mixAddress ++ (eInt a.expire ++ (eBool a.singleUse ++ (eBytes a.tokenPubKey ++
    (eBytes a.mixPubKey ++ (eBytes a.addressKey ++ eBytes a.privateData))))))
  have t5 := tlv_length_ge 4 a.privateData
  simp only [List.length_append, eBytes] at hc
  simp only [eBytes]
  omega

theorem Hdr.address_lt (h : Hdr) : h.address.length < h.asn1.length := by
  unfold Hdr.asn1
  have hc := tlv_length_ge 48 (eInt h.msgType ++ (eInt h.minDelay ++ (eInt h.maxDelay ++ (eBytes h.wireToken ++ (eBytes h.address ++ eBytes h.wireRevoke)))))
  have t5 := tlv_length_ge 4 h.address
  simp only [List.length_append, eBytes] at hc
  simp only [eBytes]
  omega

theorem RHdr.asn1_length (a : RHdr) (h : a.senderKey.length + a.nonce.length + a.receiverPub.length + a.encNym.length + a.hmacHead.length ≤ 60000) :
    a.asn1.length ≤ 60036 := by
  unfold RHdr.asn1
  have t1 := tlv_length 4 a.senderKey (by omega)
  have t2 := tlv_length 4 a.nonce (by omega)
  have t3 := tlv_length 4 a.receiverPub (by omega)
  have t4 := tlv_length 4 a.encNym (by omega)
  have t5 := tlv_length 4 a.hmacHead (by omega)
  have hc := tlv_length 48 (eBytes a.senderKey ++ (eBytes a.nonce ++ (eBytes a.receiverPub ++ (eBytes a.encNym ++ eBytes a.hmacHead))))
    (by simp only [List.length_append, eBytes]; omega)
  simp only [List.length_append, eBytes] at hc
  simp only [eBytes]
  omega

theorem ctrXor_length (B : Cipher.Block) (hB : B.Good) (key iv : Bytes) (i : Nat) (d : Bytes) :
    (Cipher.ctrXor B key iv i d).length = d.length := (Cipher.ctrXor_ctrXor B hB key iv i d).2

theorem encryptNym_length (P : Prims) (hP : P.Good) (key nym : Bytes) : (encryptNym P key nym).length = 34 := by
  unfold encryptNym
  rw [ctrXor_length _ hP.block]
  simp
  omega

theorem decryptNym_encryptNym (P : Prims) (hP : P.Good) (key nym : Bytes) (h : nym.length ≤ 32) :
    decryptNym P key (encryptNym P key nym) = .ok nym := by
  unfold decryptNym encryptNym
  rw [(Cipher.ctrXor_ctrXor _ hP.block _ _ _ _).1]
  rw [List.take_of_length_le (by omega), Nat.mod_eq_of_lt (by omega), cutNym]
  have e : (UInt8.ofNat nym.length).toNat = nym.length := by simp; omega
  rw [e, if_neg (by simp), List.take_left]

end Verif.Mix

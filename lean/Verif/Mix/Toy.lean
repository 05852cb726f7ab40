/-
Non-vacuity for the mix properties: primitives that satisfy `Prims.Good`, a template, an
address and messages that meet the hypotheses of the theorems in Mix.Props.
-/
import Verif.Mix.Props

namespace Verif.Mix
open Verif.Asn1

/-- 32 bytes depending on the input. -/
def toy32 (b : Bytes) : Bytes := fix32 b

/-- Toy primitives: public keys are the keys, the Diffie-Hellman secret is the bytewise
sum, encryption appends or keeps. -/
def toy : Prims where
  hash := toy32
  hmac := fun k m => toy32 (m ++ k)
  pub := toy32
  dh := fun a b => List.zipWith (· + ·) (fix32 a) (fix32 b)
  gcmSeal := fun _ _ m => m ++ List.replicate 16 7
  gcmOpen := fun _ _ c => if 16 ≤ c.length ∧ c.drop (c.length - 16) = List.replicate 16 7 then some (c.take (c.length - 16)) else none
  lionEnc := fun _ m => some m
  lionDec := fun _ c => some c
  block := Cipher.xorBlock
  utf8 := fun _ => true

theorem toy_good : toy.Good where
  hash_len := fun _ => fix32_length _
  hmac_len := fun _ _ => fix32_length _
  pub_len := fun _ => fix32_length _
  dh_comm := by
    intro a b
    simp only [toy, toy32, fix32_of_length (fix32_length _)]
    rw [List.zipWith_comm]
    congr 1
    funext x y
    exact UInt8.add_comm y x
  gcm_len := by intro n k m; simp [toy]
  gcm_open := by intro n k m; simp [toy]
  lion_dec := by intro k m c h; simpa [toy] using h.symm
  lion_len := by intro k m c h; simp [toy] at h; rw [h]
  block := Cipher.xorBlock_good

/-- A mix, its key and the owner's template. -/
def toyMix : MAddr := ⟨toy.pub [5], 2000, [109], []⟩
def toyTemplate : Template := ⟨[1, 2, 3], 0, [toyMix], 1000, true, 1, 2⟩
def toyLook : KeyFunc := fun pk => if pk = toy.pub [5] then some [5] else none
def toyPriv : NPriv := mkPriv toy toyTemplate [97, 64] (fix32 [9]) (List.replicate 32 3)
def toyAddr : NAddr := ⟨[109], 1000, true, [], toy.pub [5], toy.pub [8], toyPriv.asn1⟩
def toyHdr : Hdr := ⟨0, 1, 2, some [4], [], none⟩

theorem toyLook_key : toyLook (toy.pub [5]) = some [5] := if_pos rfl

theorem toyTemplate_fits : toyTemplate.Fits := by
  constructor <;> simp [toyTemplate, I32, I64]

theorem toy_newAddress : newAddress toy 10 toyTemplate [97, 64] [9] 0 [8] (List.replicate 32 3) = .ok toyAddr.asn1 := rfl

theorem encInt_small {n : Int} (h : -128 ≤ n ∧ n < 128) : encInt n = [lowByte n] := by rw [encInt, dif_pos h]

/-- A field length bound. -/
theorem eInt_length (n : Int) (h : I64 n) : (eInt n).length ≤ 14 := by
  have hl := encInt_length 8 n (by omega) (by unfold I64 at h; omega)
  have := (tlv_length 2 (encInt n) (by omega)).1
  unfold eInt
  omega

theorem toyPriv_length : toyPriv.asn1.length ≤ 300 := by
  obtain ⟨l1, l2, l3⟩ := mkPriv_lengths toy toy_good toyTemplate [97, 64] (fix32 [9]) (List.replicate 32 3)
  have l1 : toyPriv.receiverPub.length = 32 := l1
  have l2 : toyPriv.encNym.length = 34 := l2
  have l3 : toyPriv.hmacHead.length = 32 := l3
  have l4 : toyPriv.nonce.length = 32 := rfl
  have l5 : toyPriv.address.length = 2 := rfl
  have i1 := eInt_length toyPriv.system (by simp [toyPriv, mkPriv, toyTemplate, I64])
  have i2 := eInt_length toyPriv.expire (by simp [toyPriv, mkPriv, toyTemplate, I64])
  have i3 := eInt_length toyPriv.minDelay (by simp [toyPriv, mkPriv, toyTemplate, I64])
  have i4 := eInt_length toyPriv.maxDelay (by simp [toyPriv, mkPriv, toyTemplate, I64])
  have t1 := (tlv_length 4 toyPriv.address (by omega)).1
  have t2 := (tlv_length 4 toyPriv.nonce (by omega)).1
  have t3 := (tlv_length 4 toyPriv.receiverPub (by omega)).1
  have t4 := (tlv_length 4 toyPriv.encNym (by omega)).1
  have t5 := (tlv_length 4 toyPriv.hmacHead (by omega)).1
  have t6 : (eBool toyPriv.singleUse).length = 3 := rfl
  unfold NPriv.asn1
  have hc := (tlv_length 48 (eInt toyPriv.system ++ (eBytes toyPriv.address ++ (eInt toyPriv.expire ++ (eBool toyPriv.singleUse ++ (eInt toyPriv.minDelay ++
    (eInt toyPriv.maxDelay ++ (eBytes toyPriv.nonce ++ (eBytes toyPriv.receiverPub ++ (eBytes toyPriv.encNym ++ eBytes toyPriv.hmacHead)))))))))
    (by simp only [List.length_append, eBytes]; omega)).1
  simp only [List.length_append, eBytes] at hc
  simp only [eBytes]
  omega

theorem toyAddr_length (e : Int) (he : I64 e) : ({ toyAddr with expire := e } : NAddr).asn1.length ≤ 500 := by
  have l1 : toyAddr.mixAddress.length = 1 := rfl
  have l2 : toyAddr.tokenPubKey.length = 0 := rfl
  have l3 : toyAddr.mixPubKey.length = 32 := rfl
  have l4 : toyAddr.addressKey.length = 32 := rfl
  have l5 : toyAddr.privateData.length ≤ 300 := toyPriv_length
  have i1 := eInt_length e he
  have t1 := (tlv_length 4 toyAddr.mixAddress (by omega)).1
  have t2 := (tlv_length 4 toyAddr.tokenPubKey (by omega)).1
  have t3 := (tlv_length 4 toyAddr.mixPubKey (by omega)).1
  have t4 := (tlv_length 4 toyAddr.addressKey (by omega)).1
  have t5 := (tlv_length 4 toyAddr.privateData (by omega)).1
  have t6 : (eBool toyAddr.singleUse).length = 3 := rfl
  unfold NAddr.asn1
  have hc := (tlv_length 48 (eBytes toyAddr.mixAddress ++ (eInt e ++ (eBool toyAddr.singleUse ++ (eBytes toyAddr.tokenPubKey ++
    (eBytes toyAddr.mixPubKey ++ (eBytes toyAddr.addressKey ++ eBytes toyAddr.privateData))))))
    (by simp only [List.length_append, eBytes]; omega)).1
  simp only [List.length_append, eBytes] at hc
  simp only [eBytes]
  omega

theorem toyHdr_length (ty : Int) (hty : I32 ty) (addr : Bytes) (ha : addr.length ≤ 500) (rev : Bytes) (hr : rev.length ≤ 32) :
    Hdr.Short { toyHdr with msgType := ty, address := addr, revokeID := some rev } ∧
    ({ toyHdr with msgType := ty, address := addr, revokeID := some rev } : Hdr).asn1.length ≤ 700 := by
  have key : ({ toyHdr with msgType := ty, address := addr, revokeID := some rev } : Hdr).asn1.length ≤ 700 := by
    generalize hg : ({ toyHdr with msgType := ty, address := addr, revokeID := some rev } : Hdr) = g
    have e1 : g.msgType = ty := by rw [← hg]
    have e2 : g.minDelay = 1 := by rw [← hg]; rfl
    have e3 : g.maxDelay = 2 := by rw [← hg]; rfl
    have e4 : g.wireToken = [4] := by rw [← hg]; rfl
    have e5 : g.address = addr := by rw [← hg]
    have e6 : g.wireRevoke.length ≤ 32 := by
      rw [← hg]
      unfold Hdr.wireRevoke
      split
      · simp
      · exact hr
    have i1 := eInt_length g.msgType (by rw [e1]; unfold I32 at hty; unfold I64; omega)
    have i2 := eInt_length g.minDelay (by rw [e2]; simp [I64])
    have i3 := eInt_length g.maxDelay (by rw [e3]; simp [I64])
    have t1 := (tlv_length 4 g.wireToken (by simp [e4])).1
    have t2 := (tlv_length 4 g.address (by rw [e5]; omega)).1
    have t3 := (tlv_length 4 g.wireRevoke (by omega)).1
    rw [e4] at t1
    rw [e5] at t2
    simp only [List.length_singleton] at t1
    unfold Hdr.asn1
    have hc := (tlv_length 48 (eInt g.msgType ++ (eInt g.minDelay ++ (eInt g.maxDelay ++ (eBytes g.wireToken ++ (eBytes g.address ++ eBytes g.wireRevoke)))))
      (by simp only [List.length_append, eBytes, e4, e5]; omega)).1
    simp only [List.length_append, eBytes, e4, e5] at hc
    simp only [eBytes, e4, e5]
    omega
  exact ⟨by unfold Hdr.Short; omega, key⟩

theorem toyHdr_plain (addr : Bytes) : (toyHdr.forRelay addr (List.replicate 32 6)).Plain := by
  constructor <;> simp [toyHdr, Hdr.forRelay, I32, typeRelay, List.replicate_succ]

/-- A message long enough to be relayed. -/
def toyMsg : Bytes := List.replicate 5000 65
theorem toyMsg_length : toyMsg.length = 5000 := List.length_replicate ..

/-- C26_relay, C27: the toy owner, client and mix. -/
example : ∃ m ∈ toyTemplate.mixes, ∀ look k, m.pubkey = toy.pub k → look (toy.pub k) = some k →
      ∃ e rs, newRelay toy 20 toyHdr toyAddr.asn1 toyMsg (List.replicate 32 6) [11] (List.replicate 32 12) = .ok (e, m.address) ∧
        receive toy 30 look e = .ok rs ∧ rs.hdr = ⟨2, toyHdr.minDelay, toyHdr.maxDelay, toyHdr.token, toyAddr.asn1, some (List.replicate 32 6)⟩ ∧ rs.message = toyMsg ∧
        ∀ e2, ∃ out, send toy e2 rs = .ok (out, [97, 64] ++ domain) ∧
          receiveFromMix toy toyTemplate [97, 64] out = .ok (toyMsg, fix32 [9]) :=
  C26_relay toy toy_good toyTemplate toyTemplate_fits rfl 10 20 30 [97, 64] [9] 0 [8] (List.replicate 32 3) toyAddr.asn1
    (by simp) toy_newAddress toyHdr toyMsg (List.replicate 32 6) [11] (List.replicate 32 12) (by simp)
    (by simp [toyTemplate]) (by simp [toyTemplate]) (toyHdr_plain _)
    (toyHdr_length typeRelay (by simp [I32, typeRelay]) _ (toyAddr_length 1000 (by simp [I64])) _ (by simp)).1 (by rw [toyMsg_length]; omega)

/-- The mix of the example is found by `toyLook`. -/
example : toyMix ∈ toyTemplate.mixes ∧ toyMix.pubkey = toy.pub [5] ∧ toyLook (toy.pub [5]) = some [5] :=
  ⟨List.mem_cons_self .., rfl, toyLook_key⟩

/-- C26_forward. -/
example := C26_forward toy toy_good 10 toyLook [5] toyLook_key { toyHdr with revokeID := some [1] } [1, 2] toyMsg [11] (List.replicate 32 12) (by simp)
  (by constructor <;> simp [toyHdr, I32, typeForward])
  (toyHdr_length typeForward (by simp [I32, typeForward]) [1, 2] (by simp) [1] (by simp)).1 (by rw [toyMsg_length]; omega) []

/-- C24_round_trip and the crashing messages. -/
example := C24_round_trip toy toy_good toyLook [5] [11] (List.replicate 32 12) [1, 2, 3] toyLook_key (by simp)
example := C25_length_crashes_mix toy toy_good 10 toyLook [5] toyLook_key
example := C25_empty_token_crashes_mix toy 10 toyLook ⟨1, 0, 0, some [], [], none⟩ (by simp [I32]) (by simp [I32]) (by simp [I32]) rfl
  (by
    simp only [Hdr.asn1, Hdr.wireToken, Hdr.wireRevoke, Option.getD, if_pos (show (1 : Int) = typeForward from rfl), eInt,
      encInt_small (show -128 ≤ (1 : Int) ∧ (1 : Int) < 128 by omega), encInt_small (show -128 ≤ (0 : Int) ∧ (0 : Int) < 128 by omega)]
    decide) toyMsg
example := C25_other_type_crashes_mix toy 10 toyLook { toyHdr with msgType := 3, address := [], revokeID := some [1] }
  (by constructor <;> simp [toyHdr, I32]) (by decide) (toyHdr_length 3 (by simp [I32]) [] (by simp) [1] (by simp)).1 [] (by simp)

/-- What the client library writes is tame. -/
theorem tame_of_plain (h : Hdr) (hp : h.Plain) (hs : h.Short) (hty : h.msgType = typeForward ∨ h.msgType = typeRelay) (msg : Bytes) :
    Tame (h.marshal ++ msg) := by
  unfold Hdr.Short at hs
  have hlen := h.marshal_length
  have hh : hdrLen (h.marshal ++ msg) = h.asn1.length + 2 := by
    rw [Hdr.marshal, List.append_assoc, hdrLen_be16 _ (by omega), Nat.mod_eq_of_lt (by omega)]
  constructor
  · obtain ⟨e1, e2⟩ := be16_value h.asn1.length (by omega) (h.asn1 ++ msg)
    rw [Hdr.marshal, List.append_assoc, e1]
    simp only [List.getD_cons_zero, List.getD_cons_succ]
    omega
  · intro g hg
    have e : ((h.marshal ++ msg).take (h.asn1.length + 2)).drop 2 = h.asn1 ++ [] := by
      rw [← hlen, List.take_left]
      simp [Hdr.marshal, be16]
    rw [hh, e, Hdr.parse_asn1 h hp.ty hp.lo hp.hi (by omega)] at hg
    cases hg
    refine ⟨?_, ?_, hty⟩
    · simp only [ne_eq, Option.some.injEq, Hdr.wireToken]
      have := hp.token.1
      cases ht : h.token <;> simp_all
    · simp only [ne_eq, Option.some.injEq, Hdr.wireRevoke]
      have := hp.revoke.1
      split
      · simp
      · cases ht : h.revokeID <;> simp_all

/-- The hypothesis of C25_receive_no_panic_partial is met by a real message. -/
example : ∃ e, encrypt toy (some (toy.pub [5])) [11] (List.replicate 32 12)
      ((toyHdr.forRelay toyAddr.asn1 (List.replicate 32 6)).marshal ++ toyMsg) = .ok e ∧
    ∀ d, decrypt toy toyLook e = .ok d → Tame d := by
  obtain ⟨e, h1, h2⟩ := C24_round_trip toy toy_good toyLook [5] [11] (List.replicate 32 12)
    ((toyHdr.forRelay toyAddr.asn1 (List.replicate 32 6)).marshal ++ toyMsg) toyLook_key (by simp)
  refine ⟨e, h1, fun d hd => ?_⟩
  rw [h2] at hd
  cases hd
  exact tame_of_plain _ (toyHdr_plain _)
    (toyHdr_length typeRelay (by simp [I32, typeRelay]) _ (toyAddr_length 1000 (by simp [I64])) _ (by simp)).1 (.inr rfl) _

theorem encLen_three {n : Nat} (h1 : 256 ≤ n) (h2 : n < 65536) : (encLen n).length = 3 := by
  have h3 := (base256_length_le n 2).mpr (by omega)
  have h4 := mt (base256_length_le n 1).mp (by omega)
  unfold encLen
  rw [if_neg (by omega), List.length_cons]
  omega

/-- Headers with a long token. -/
theorem longHdr_length (tok : Bytes) (h1 : 256 ≤ tok.length) (h2 : tok.length ≤ 65513) :
    (Hdr.mk 1 0 0 (some tok) [] none).asn1.length = tok.length + 22 := by
  have i1 : (eInt 1).length = 3 := by rw [eInt, encInt_small (by omega)]; rfl
  have i0 : (eInt 0).length = 3 := by rw [eInt, encInt_small (by omega)]; rfl
  have t0 : (tlv 4 [0]).length = 3 := rfl
  have t1 : (tlv 4 []).length = 2 := rfl
  have t2 : (tlv 4 tok).length = tok.length + 4 := by
    unfold tlv
    simp only [List.length_cons, List.length_append, encLen_three h1 (by omega)]
    omega
  simp only [Hdr.asn1, Hdr.wireToken, Hdr.wireRevoke, Option.getD, if_pos (show (1 : Int) = typeForward from rfl), eBytes]
  rw [tlv]
  simp only [List.length_cons, List.length_append, i1, i0, t0, t1, t2]
  rw [encLen_three (by omega) (by omega)]
  omega

/-- C25_long_header_crashes_mix and C26_long_header_panics. -/
example (tok : Bytes) (h : tok.length = 65300) (h0 : tok.head? = some 1) :=
  C25_long_header_crashes_mix toy 10 toyLook (Hdr.mk 1 0 0 (some tok) [] none)
    (by
      constructor <;> simp [I32]
      constructor <;> (rintro rfl; simp at h))
    rfl (by rw [longHdr_length tok (by omega) (by omega)]; omega) toyMsg (by rw [toyMsg_length]; omega)
example (tok : Bytes) (h : tok.length = 65512) := C26_long_header_panics (Hdr.mk 1 0 0 (some tok) [] none)
  (by rw [longHdr_length tok (by omega) (by omega)]; omega) []

/-- C77_expired_address_works: the single-use toy address at time 1500. -/
example := C77_expired_address_works toy toy_good toyTemplate toyTemplate_fits 10 1500 (by simp [I64]) (by simp [toyTemplate])
  [97, 64] [9] 0 [8] (List.replicate 32 3) toyAddr.asn1 toy_newAddress toyAddr
  (by
    have := NAddr.parse_asn1 toyAddr (by simp [I64, toyAddr]) (Nat.lt_of_le_of_lt (toyAddr_length 1000 (by simp [I64])) (by omega)) []
    rwa [List.append_nil] at this)
  (Nat.lt_of_le_of_lt (toyAddr_length 1000 (by simp [I64])) (by omega)) toyLook [5] rfl toyLook_key toyHdr toyMsg
  (List.replicate 32 6) [11] (List.replicate 32 12) (by simp) (toyHdr_plain _)
  (toyHdr_length typeRelay (by simp [I32, typeRelay]) _ (toyAddr_length 1500 (by simp [I64])) _ (by simp)).1 (by rw [toyMsg_length]; omega)

end Verif.Mix

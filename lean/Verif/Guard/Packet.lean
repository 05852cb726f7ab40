/-
The packets of a token payment (serviceguard/client/packetproto/methods.go): making a request for a new token
from an old one, and making the new token from the reply of the issuer.

The blind signatures (package jjm of github.com/ronperry/cryptoedge, not part of the repository) are parameters on
marshalled values. Random bytes and the time are arguments. Saving keys to storage is not modelled (its errors are
ignored, methods.go:88-90).
-/
import Verif.Guard.ClientProps
import Verif.Guard.ReissueBad

set_option autoImplicit false

namespace Verif.Guard.Packet
open Verif.Asn1 Verif.Util
open Verif.Mix (fix32 fix64 fix32_of_length)
open Verif.Guard.KeyPool (Pool PubKey Source setBytes setBytes_base256)

/-! ### Model -/

/-- A signature of a token: the point R, the scalars R and S. -/
structure Sig where
  x : Nat
  y : Nat
  r : Nat
  s : Nat
  deriving DecidableEq

/-- Package jjm. -/
structure Scheme where
  /-- ASN.1 of `types.Params` (types.go:39-44): the marshalled key, the public parameters, if the token can be
  reissued -/
  params : Bytes → Option (Bytes × Bytes × Bool)
  /-- `Blind` with the public key, public parameters, random bytes and the message: marshalled factors and the
  marshalled blind message -/
  blind : Nat × Nat → Bytes → Bytes → Bytes → Option (Bytes × Bytes)
  /-- `BlindingFactors.Unmarshal`: no error -/
  factorsOk : Nat × Nat → Bytes → Bool
  /-- `BlindSignature.Unmarshal` -/
  reply : Nat × Nat → Bytes → Option Bytes
  /-- `Unblind` with the factors, the message and the blind signature, nil if that could not be read -/
  unblind : Nat × Nat → Bytes → Bytes → Option Bytes → Option Sig
  /-- `Verify`: the result, and if there is no error -/
  verify : Nat × Nat → Sig → Bytes → Bool × Bool

/-- `token.New` (token/types.go:47-69): the bytes read for the owner of a token without owner and for the nonce. -/
def newToken (keyID : Bytes) (owner : Option Bytes) (randOwner randNonce : Option Bytes) : Option Token :=
  match owner with
  | none => match randOwner, randNonce with
    | some o, some n => some ⟨keyID, false, n, o, [], [], [], []⟩
    | _, _ => none
  | some o => match randNonce with
    | some n => some ⟨keyID, true, n, o, [], [], [], []⟩
    | none => none

/-- `AddSignature` (token/types.go:120-125). -/
def addSignature (t : Token) (g : Sig) : Token :=
  { t with pointRX := base256 g.x, pointRY := base256 g.y, scalarR := base256 g.r, scalarS := base256 g.s }

/-- `GetSignature` (token/types.go:128-134). -/
def getSignature (t : Token) : Sig := ⟨setBytes t.pointRX, setBytes t.pointRY, setBytes t.scalarR, setBytes t.scalarS⟩

/-- `ReissuePacket.Marshal` (types.go:82-84). -/
def marshalPacket (p : ReissuePacket) : Bytes :=
  tlv 48 (eInt p.callType ++ (eBytes p.token ++ (eBytes p.blindToken ++ (eBytes p.params ++ eBytes p.signature))))

/-- `ReissuePacket.Unmarshal` (types.go:87-96). -/
def unmarshalPacket (d : Bytes) : Option ReissuePacket :=
  (readTLV 48 d).bind fun (b, _) =>
  (fInt32 b).bind fun (c, b) => (fBytes b).bind fun (t, b) => (fBytes b).bind fun (m, b) => (fBytes b).bind fun (p, b) =>
  (fBytes b).bind fun (s, _) => some ⟨c, t, m, p, s⟩

/-- `ReissuePacketPrivate` (types.go:147-154). -/
structure Private where
  publicKey : Bytes
  factors : Bytes
  token : Bytes
  requestHash : Bytes
  request : Bytes
  canReissue : Bool
  deriving DecidableEq

/-- `ReissuePacketPrivate.Marshal` (types.go:157-159). -/
def Private.marshal (p : Private) : Bytes :=
  tlv 48 (eBytes p.publicKey ++ (eBytes p.factors ++ (eBytes p.token ++ (eBytes p.requestHash ++ (eBytes p.request ++ eBool p.canReissue)))))

/-- `ReissuePacketPrivate.Unmarshal` (types.go:162-171). -/
def Private.unmarshal (d : Bytes) : Option Private :=
  (readTLV 48 d).bind fun (b, _) =>
  (fBytes b).bind fun (k, b) => (fBytes b).bind fun (f, b) => (fBytes b).bind fun (t, b) => (fBytes b).bind fun (h, b) =>
  (fBytes b).bind fun (r, b) => (fBool b).bind fun (c, _) => some ⟨k, f, t, h, r, c⟩

/-- The random bytes of a request. -/
structure Rand where
  owner : Option Bytes
  nonce : Option Bytes
  blind : Bytes

/-- What a request is made in: text check, time, storages of the pool. -/
structure Ctx where
  utf8 : Bytes → Bool
  now : Int
  sources : List Source

/-- The last part of `Reissue` (methods.go:91-137). -/
def request (P : Prims) (S : Scheme) (c : Ctx) (r : Rand) (old : Token) (k : PubKey) (pp : Bytes) (can : Bool)
    (oldOwner newOwner : Option Bytes) (params : Bytes) : Option (Bytes × Private) :=
  (newToken k.keyID newOwner r.owner r.nonce).bind fun t =>
  (S.blind (k.x, k.y) pp r.blind (t.hash P)).bind fun (factors, msg) =>
  if old.properties.2.isSome ∧ oldOwner = none then none else
  let p : ReissuePacket := ⟨0, old.marshal, msg, params, []⟩
  let p := { p with signature := signImage P oldOwner (p.image P) }
  (k.marshal c.utf8).bind fun pub =>
  some (marshalPacket p, ⟨pub, factors, t.marshal, P.sha256 (p.image P), marshalPacket p, can⟩)

/-- `Reissue` (methods.go:52-139) with the resulting pool. -/
def reissue (P : Prims) (S : Scheme) (c : Ctx) (pool : Pool) (r : Rand) (oldEnc : Bytes) (oldOwner newOwner : Option Bytes)
    (params : Bytes) : Pool × Option (Bytes × Private) :=
  match Token.unmarshal oldEnc, S.params params with
  | some old, some (pubBytes, pp, can) =>
    match PubKey.unmarshal c.utf8 pubBytes with
    | none => (pool, none)
    | some k =>
      match pool.lookupFetch P c.utf8 c.now (fix32 old.keyID) c.sources with
      | (pool, .error _) => (pool, none)
      | (pool, .ok oldKey) =>
        if oldKey.usage ≠ k.usage then (pool, none)
        else if oldKey.signer ≠ k.signer then (pool, none)
        else
          let l := pool.loadKey P c.now k
          if KeyPool.usable l.2 then (l.1, request P S c r old k pp can oldOwner newOwner params) else (l.1, none)
  | _, _ => (pool, none)

/-- `Unblind` (methods.go:142-169) of the stored private part (reissue.go:140-149). The error of reading the
signature is overwritten (methods.go:156-158), the result of the verification is not looked at (methods.go:162). -/
def unblind (P : Prims) (S : Scheme) (utf8 : Bytes → Bool) (stored : Bytes) (reply : Bytes) : Option Bytes :=
  (Private.unmarshal stored).bind fun l =>
  (PubKey.unmarshal utf8 l.publicKey).bind fun k =>
  if S.factorsOk (k.x, k.y) l.factors = false then none else
  (Token.unmarshal l.token).bind fun t =>
  (S.unblind (k.x, k.y) l.factors (t.hash P) (S.reply (k.x, k.y) reply)).bind fun g =>
  if (S.verify (k.x, k.y) g (t.hash P)).2 then some (addSignature t g).marshal else none

/-- `Spend` (methods.go:172-178) before marshalling. -/
def spend (P : Prims) (token : Bytes) (owner : Option Bytes) : SpendPacket :=
  let p : SpendPacket := ⟨1, token, []⟩
  { p with signature := signImage P owner (p.image P) }

/-! ### Specification -/

/-- The token carries a signature of the key for its hash. -/
def Signed (P : Prims) (S : Scheme) (k : PubKey) (t : Token) : Prop := (S.verify (k.x, k.y) (getSignature t) (t.hash P)).1 = true

/-- A library whose `Verify` never returns false without an error. -/
def Loud (S : Scheme) : Prop := ∀ p g h, (S.verify p g h).1 = false → (S.verify p g h).2 = false

/-- Signatures: 64 bytes, and verified with the public key of the signer. -/
structure Keys (P : Prims) where
  pub : Bytes → Bytes
  length : ∀ k b, (P.sign k b).length = 64
  verifies : ∀ k b, P.verify (pub k) b (P.sign k b) = true

/-- An issuer that knows the private parameters belonging to parameters it has given out and signs every blind
message of a well-formed request for an unspent token it has issued and that is signed by the owner of the token. -/
structure Issuer (P : Prims) (S : Scheme) where
  /-- the private key of the parameters signs a blind message -/
  sign : Bytes → Bytes → Option Bytes
  /-- the old token is known and not spent -/
  good : Token → Bool

/-- What the issuer answers to a request. -/
def Issuer.answer {P : Prims} {S : Scheme} (i : Issuer P S) (packet : Bytes) : Option Bytes :=
  (unmarshalPacket packet).bind fun p =>
  (Token.unmarshal p.token).bind fun t =>
  if p.callType = 0 ∧ i.good t ∧ verifyImage P t.properties.2 (p.image P) p.signature then i.sign p.params p.blindToken else none

/-- Blind signatures work: what was blinded with parameters of the issuer and signed by it gives a signature that
verifies. -/
def Works {P : Prims} {S : Scheme} (i : Issuer P S) (params : Bytes) (k : PubKey) (pp : Bytes) : Prop :=
  ∀ r h factors msg, S.blind (k.x, k.y) pp r h = some (factors, msg) →
    S.factorsOk (k.x, k.y) factors = true ∧
    ∃ reply g, i.sign params msg = some reply ∧
      S.unblind (k.x, k.y) factors h (S.reply (k.x, k.y) reply) = some g ∧ S.verify (k.x, k.y) g h = (true, true) ∧
      (base256 g.x).length + (base256 g.y).length + (base256 g.r).length + (base256 g.s).length < 2 ^ 28

/-! ### Round trips -/

theorem packet_round_trip (p : ReissuePacket) (hc : -2 ^ 31 ≤ p.callType ∧ p.callType < 2 ^ 31)
    (h : p.token.length + p.blindToken.length + p.params.length + p.signature.length < 2 ^ 30) :
    unmarshalPacket (marshalPacket p) = some p := by
  unfold unmarshalPacket marshalPacket
  have t1 := tlv_length 4 p.token (by omega)
  have t2 := tlv_length 4 p.blindToken (by omega)
  have t3 := tlv_length 4 p.params (by omega)
  have t4 := tlv_length 4 p.signature (by omega)
  have t5 : (encInt p.callType).length ≤ 8 := encInt_length 8 p.callType (by omega) (by omega)
  have t6 := tlv_length 2 (encInt p.callType) (by omega)
  rw [← List.append_nil (tlv 48 _), readTLV_tlv]
  · simp only [Option.bind_some]
    rw [fInt32_eInt _ hc]
    simp only [Option.bind_some]
    rw [fBytes_eBytes _ (by omega)]
    simp only [Option.bind_some]
    rw [fBytes_eBytes _ (by omega)]
    simp only [Option.bind_some]
    rw [fBytes_eBytes _ (by omega)]
    simp only [Option.bind_some]
    rw [← List.append_nil (eBytes p.signature), fBytes_eBytes _ (by omega)]
    simp only [Option.bind_some]
  · simp only [List.length_append, eBytes, eInt] at *
    omega

theorem private_round_trip (p : Private)
    (h : p.publicKey.length + p.factors.length + p.token.length + p.requestHash.length + p.request.length < 2 ^ 30 + 2 ^ 29) :
    Private.unmarshal p.marshal = some p := by
  unfold Private.unmarshal Private.marshal
  have t1 := tlv_length 4 p.publicKey (by omega)
  have t2 := tlv_length 4 p.factors (by omega)
  have t3 := tlv_length 4 p.token (by omega)
  have t4 := tlv_length 4 p.requestHash (by omega)
  have t5 := tlv_length 4 p.request (by omega)
  have t6 := tlv_length 1 [if p.canReissue then (255 : UInt8) else 0] (by simp)
  rw [← List.append_nil (tlv 48 _), readTLV_tlv]
  · simp only [Option.bind_some]
    rw [fBytes_eBytes _ (by omega)]
    simp only [Option.bind_some]
    rw [fBytes_eBytes _ (by omega)]
    simp only [Option.bind_some]
    rw [fBytes_eBytes _ (by omega)]
    simp only [Option.bind_some]
    rw [fBytes_eBytes _ (by omega)]
    simp only [Option.bind_some]
    rw [fBytes_eBytes _ (by omega)]
    simp only [Option.bind_some]
    rw [← List.append_nil (eBool p.canReissue), fBool_eBool]
    simp only [Option.bind_some]
  · simp only [List.length_append, eBytes, eBool] at *
    simp only [List.length_singleton] at t6
    omega

theorem getSignature_add (t : Token) (g : Sig) : getSignature (addSignature t g) = g := by
  simp [getSignature, addSignature, setBytes_base256]

theorem hash_add (P : Prims) (t : Token) (g : Sig) : (addSignature t g).hash P = t.hash P := rfl

/-! ### Theorems -/

/-- What a request that was made consists of. -/
theorem reissue_ok {P : Prims} {S : Scheme} {c : Ctx} {pool pool' : Pool} {r : Rand} {oldEnc : Bytes}
    {oldOwner newOwner : Option Bytes} {params packet : Bytes} {l : Private}
    (h : reissue P S c pool r oldEnc oldOwner newOwner params = (pool', some (packet, l))) :
    ∃ old pubBytes pp can k oldKey p1,
      Token.unmarshal oldEnc = some old ∧ S.params params = some (pubBytes, pp, can) ∧
      PubKey.unmarshal c.utf8 pubBytes = some k ∧
      pool.lookupFetch P c.utf8 c.now (fix32 old.keyID) c.sources = (p1, .ok oldKey) ∧
      oldKey.usage = k.usage ∧ oldKey.signer = k.signer ∧
      pool' = (p1.loadKey P c.now k).1 ∧ KeyPool.usable (p1.loadKey P c.now k).2 = true ∧
      request P S c r old k pp can oldOwner newOwner params = some (packet, l) := by
  unfold reissue at h
  split at h
  · rename_i old pubBytes pp can ho hp
    split at h
    · cases h
    · rename_i k hk
      split at h
      · cases h
      · rename_i p1 oldKey hl
        split at h
        · cases h
        · rename_i hu
          split at h
          · cases h
          · rename_i hs
            simp only at h
            split at h
            · rename_i hus
              have h1 := (Prod.mk.inj h).1
              have h2 := (Prod.mk.inj h).2
              exact ⟨old, pubBytes, pp, can, k, oldKey, p1, ho, hp, hk, hl, Decidable.not_not.mp hu, Decidable.not_not.mp hs, h1.symm, hus, h2⟩
            · cases h
  · cases h

/-- The parts of the request. -/
theorem request_ok {P : Prims} {S : Scheme} {c : Ctx} {r : Rand} {old : Token} {k : PubKey} {pp : Bytes} {can : Bool}
    {oldOwner newOwner : Option Bytes} {params packet : Bytes} {l : Private}
    (h : request P S c r old k pp can oldOwner newOwner params = some (packet, l)) :
    ∃ t factors msg pub, newToken k.keyID newOwner r.owner r.nonce = some t ∧
      S.blind (k.x, k.y) pp r.blind (t.hash P) = some (factors, msg) ∧
      (old.flag = true → oldOwner ≠ none) ∧ k.marshal c.utf8 = some pub ∧
      (let p : ReissuePacket := ⟨0, old.marshal, msg, params, signImage P oldOwner (ReissuePacket.image P ⟨0, old.marshal, msg, params, []⟩)⟩
       packet = marshalPacket p ∧ l = ⟨pub, factors, t.marshal, P.sha256 (p.image P), packet, can⟩) := by
  unfold request at h
  obtain ⟨t, ht, h⟩ := Option.bind_eq_some_iff.mp h
  obtain ⟨⟨factors, msg⟩, hb, h⟩ := Option.bind_eq_some_iff.mp h
  simp only at h
  split at h
  · cases h
  · rename_i hn
    obtain ⟨pub, hp, h⟩ := Option.bind_eq_some_iff.mp h
    cases h
    refine ⟨t, factors, msg, pub, ht, hb, ?_, hp, rfl, rfl⟩
    intro hf ho
    exact hn ⟨by simp [Token.properties, hf], ho⟩

theorem newToken_ok {keyID : Bytes} {owner ro rn : Option Bytes} {t : Token} (h : newToken keyID owner ro rn = some t) :
    t.keyID = keyID ∧ t.flag = owner.isSome ∧ rn = some t.nonce ∧ (∀ o, owner = some o → t.owner = o) ∧
    (owner = none → ro = some t.owner) ∧ t.pointRX = [] ∧ t.pointRY = [] ∧ t.scalarS = [] ∧ t.scalarR = [] := by
  unfold newToken at h
  split at h
  · split at h
    · cases h; simp
    · cases h
  · split at h
    · cases h; simp
    · cases h

/-- A request is only made with a key of the same usage and the same signer as the key of the old token, that is signed
by a known signer and has not expired; it is for a token of exactly that key and the new owner; it carries the old token
and the parameters, signed for the owner if there is one. -/
theorem C124_request (P : Prims) (S : Scheme) (c : Ctx) (pool pool' : Pool) (r : Rand) (oldEnc : Bytes)
    (oldOwner newOwner : Option Bytes) (params packet : Bytes) (l : Private) (hi : KeyPool.Inv P pool)
    (h : reissue P S c pool r oldEnc oldOwner newOwner params = (pool', some (packet, l)))
    (hsize : ∀ p : ReissuePacket, packet = marshalPacket p → p.callType = 0 →
      p.token.length + p.blindToken.length + p.params.length + p.signature.length < 2 ^ 30) :
    ∃ (old : Token) (oldKey k : PubKey) (p : ReissuePacket) (t : Token) (pubBytes pp : Bytes) (can : Bool),
      -- the old token and its key
      Token.unmarshal oldEnc = some old ∧ oldKey.keyID = fix32 old.keyID ∧ c.now ≤ oldKey.expire ∧ KeyPool.Trusted P pool oldKey ∧
      -- the new key, from the parameters
      S.params params = some (pubBytes, pp, can) ∧ PubKey.unmarshal c.utf8 pubBytes = some k ∧
      k.usage = oldKey.usage ∧ k.signer = oldKey.signer ∧ KeyPool.Signed P k ∧ k.signer ∈ pool.verifyKeys ∧ c.now ≤ k.expire ∧
      -- the new token
      t.keyID = k.keyID ∧ t.flag = newOwner.isSome ∧ (∀ o, newOwner = some o → t.owner = o) ∧ l.token = t.marshal ∧
      -- what the issuer reads
      unmarshalPacket packet = some p ∧ p.callType = 0 ∧ p.token = old.marshal ∧ p.params = params ∧
      (∃ factors, S.blind (k.x, k.y) pp r.blind (t.hash P) = some (factors, p.blindToken) ∧ l.factors = factors) ∧
      p.signature = signImage P oldOwner (p.image P) ∧ (old.flag = true → oldOwner ≠ none) := by
  obtain ⟨old, pubBytes, pp, can, k, oldKey, p1, ho, hp, hk, hl, hu, hs, hpool, hus, hr⟩ := reissue_ok h
  obtain ⟨t, factors, msg, pub, ht, hb, hf, hm, hpk, hl'⟩ := request_ok hr
  obtain ⟨e1, e2, e3⟩ := KeyPool.lookupFetch_key hi (h := by rw [hl])
  have hsame := (KeyPool.lookupFetch_ok (P := P) (utf8 := c.utf8) (now := c.now) (fix32 old.keyID) c.sources pool).1
  rw [hl] at hsame
  have hacc : KeyPool.Accepted P p1 c.now k := by
    rcases KeyPool.loadKey_cases P p1 c.now k with e | ⟨ha, _⟩ | ⟨ha, _⟩
    · rw [e.2] at hus; cases hus
    · exact ha
    · exact ha
  obtain ⟨n1, n2, _, n4, _⟩ := newToken_ok ht
  have himg : ∀ sg, (ReissuePacket.mk 0 old.marshal msg params sg).image P = (ReissuePacket.mk 0 old.marshal msg params []).image P := fun _ => rfl
  refine ⟨old, oldKey, k, _, t, pubBytes, pp, can, ho, e1, e2, e3, hp, hk, hu.symm, hs.symm, hacc.signed, ?_, hacc.expire, n1, n2, n4, ?_,
    by rw [hpk]; exact packet_round_trip _ (by simp) (hsize _ hpk rfl), rfl, rfl, rfl, ⟨factors, hb, ?_⟩, ?_, hf⟩
  · have h1 := hacc.signer
    have h2 : p1.verifyKeys = pool.verifyKeys := hsame.2
    rw [← h2]; exact h1
  · rw [hl']
  · rw [hl']
  · exact (congrArg (signImage P oldOwner) (himg _)).symm ▸ rfl

/-- Whatever the issuer replies: what is made of it is the token that was asked for, with a signature of the key in the
stored part that verifies, or nothing. For libraries whose verification reports failures as errors. -/
theorem C124_unblind (P : Prims) (S : Scheme) (hL : Loud S) (utf8 : Bytes → Bool) (l : Private) (k : PubKey) (t : Token) (reply new : Bytes)
    (hl : l.publicKey.length + l.factors.length + l.token.length + l.requestHash.length + l.request.length < 2 ^ 30 + 2 ^ 29)
    (hk : PubKey.unmarshal utf8 l.publicKey = some k) (ht : Token.unmarshal l.token = some t)
    (h : unblind P S utf8 l.marshal reply = some new) :
    ∃ t', new = t'.marshal ∧ t'.hash P = t.hash P ∧ t'.properties = t.properties ∧ Signed P S k t' := by
  unfold unblind at h
  rw [private_round_trip l hl, Option.bind_some, hk, Option.bind_some] at h
  split at h
  · cases h
  · rw [ht, Option.bind_some] at h
    obtain ⟨g, hg, h⟩ := Option.bind_eq_some_iff.mp h
    split at h
    · rename_i hv
      cases h
      refine ⟨addSignature t g, rfl, rfl, rfl, ?_⟩
      unfold Signed
      rw [getSignature_add, hash_add]
      cases hq : (S.verify (k.x, k.y) g (t.hash P)).1 with
      | true => rfl
      | false => rw [hL _ _ _ hq] at hv; cases hv
    · cases h

/-- End to end: a request that was made for an unspent token with the key of its owner is answered by an issuer that
works, and the reply gives a token that everyone who knows the key accepts, with the usage of the old token and the new
owner. -/
theorem C124_payment (P : Prims) (S : Scheme) (K : Keys P) (i : Issuer P S) (c : Ctx) (pool pool' : Pool) (r : Rand)
    (oldEnc : Bytes) (priv : Bytes) (newOwner params packet : Bytes) (l : Private)
    (hash32 : ∀ b, (P.sha256 b).length = 32)
    (h : reissue P S c pool r oldEnc (some priv) (some newOwner) params = (pool', some (packet, l)))
    -- the token was written by Marshal and is owned by the given key
    (old : Token) (hold : oldEnc = old.marshal) (howner : old.properties.2 = some (K.pub priv)) (hgood : i.good old = true)
    (holdsize : old.keyID.length + old.nonce.length + old.owner.length + old.pointRX.length + old.pointRY.length + old.scalarS.length + old.scalarR.length < 2 ^ 27)
    -- sizes
    (hno : newOwner.length = 32) (hrn : ∀ n, r.nonce = some n → n.length = 16) (hps : params.length < 2 ^ 28)
    (hbs : ∀ k pp h f m, S.blind k pp r.blind h = some (f, m) → f.length < 2 ^ 28 ∧ m.length < 2 ^ 28)
    -- the parameters are from the issuer
    (k : PubKey) (pubBytes pp : Bytes) (can : Bool) (hp : S.params params = some (pubBytes, pp, can))
    (hk : PubKey.unmarshal c.utf8 pubBytes = some k) (hw : Works i params k pp)
    (hke : -2 ^ 63 ≤ k.expire ∧ k.expire < 2 ^ 63) (hku : k.usage.length < 2 ^ 27)
    (hkid : k.keyID.length = 32 ∧ k.signer.length = 32 ∧ k.signature.length = 64)
    (hkx : (base256 k.x).length < 2 ^ 27) (hky : (base256 k.y).length < 2 ^ 27) :
    ∃ reply new t', i.answer packet = some reply ∧ unblind P S c.utf8 l.marshal reply = some new ∧
      Token.unmarshal new = some t' ∧ t'.properties = (k.keyID, some newOwner) ∧ Signed P S k t' ∧
      (∀ oldKey p1, pool.lookupFetch P c.utf8 c.now (fix32 old.keyID) c.sources = (p1, .ok oldKey) → k.usage = oldKey.usage) ∧
      ∀ (env : Client.Env) (cl : Client.Client) (c1 : Client.Client), env.utf8 = c.utf8 →
        (env.blindVerify = fun q g h => (S.verify q ⟨setBytes g.1, setBytes g.2.1, setBytes g.2.2.1, setBytes g.2.2.2⟩ h).1) →
        cl.getPubKey P env k.keyID = (c1, .ok k) → env.now ≤ k.expire →
        (cl.verify P env new).2 = .ok ⟨t'.hash P, new, none, some newOwner, none, false, false, k.usage, k.expire, none, none, none, none⟩ := by
  obtain ⟨old', pubBytes', pp', can', k', oldKey, p1, ho, hp', hk', hl, hu, hs, hpool, hus, hr⟩ := reissue_ok h
  have hrt := C85_round_trip old (by omega)
  rw [hold, hrt] at ho
  cases ho
  rw [hp] at hp'
  cases hp'
  rw [hk] at hk'
  cases hk'
  obtain ⟨t, factors, msg, pub, ht, hb, hf, hm, hpk, hl'⟩ := request_ok hr
  obtain ⟨n1, n2, n3, n4, _, n6, n7, n8, n9⟩ := newToken_ok ht
  have no := n4 newOwner rfl
  have nn := hrn _ n3
  obtain ⟨bs1, bs2⟩ := hbs _ _ _ _ _ hb
  obtain ⟨hfo, reply, g, hsig, hun, hv, hgs⟩ := hw _ _ _ _ hb
  -- sizes of the packet
  have m1 : old.marshal.length < 2 ^ 27 + 60 := by
    unfold Token.marshal
    have t1 := tlv_length 4 old.keyID (by omega)
    have t2 := tlv_length 4 old.nonce (by omega)
    have t3 := tlv_length 4 old.owner (by omega)
    have t4 := tlv_length 4 old.pointRX (by omega)
    have t5 := tlv_length 4 old.pointRY (by omega)
    have t6 := tlv_length 4 old.scalarS (by omega)
    have t7 := tlv_length 4 old.scalarR (by omega)
    have t8 := tlv_length 1 [if old.flag then (255 : UInt8) else 0] (by simp)
    simp only [List.length_singleton] at t8
    have t9 := tlv_length 48 (eBytes old.keyID ++ (eBool old.flag ++ (eBytes old.nonce ++ (eBytes old.owner ++
      (eBytes old.pointRX ++ (eBytes old.pointRY ++ (eBytes old.scalarS ++ eBytes old.scalarR))))))) (by
        simp only [List.length_append, eBytes, eBool]; omega)
    simp only [List.length_append, eBytes, eBool] at t9 ⊢
    omega
  have hsl : (signImage P (some priv) (ReissuePacket.image P ⟨0, old.marshal, msg, params, []⟩)).length = 64 := K.length _ _
  have hpsz : old.marshal.length + msg.length + params.length + (signImage P (some priv) (ReissuePacket.image P ⟨0, old.marshal, msg, params, []⟩)).length < 2 ^ 30 := by
    omega
  have hread := packet_round_trip ⟨0, old.marshal, msg, params, signImage P (some priv) (ReissuePacket.image P ⟨0, old.marshal, msg, params, []⟩)⟩
    (by simp) hpsz
  have hpl : packet.length < 2 ^ 29 + 2 ^ 27 + 200 := by
    rw [hpk]
    unfold marshalPacket
    have t1 := tlv_length 4 old.marshal (by omega)
    have t2 := tlv_length 4 msg (by omega)
    have t3 := tlv_length 4 params (by omega)
    have t4 := tlv_length 4 (signImage P (some priv) (ReissuePacket.image P ⟨0, old.marshal, msg, params, []⟩)) (by omega)
    have t5 : (encInt (0 : Int)).length ≤ 8 := encInt_length 8 0 (by omega) (by omega)
    have t6 := tlv_length 2 (encInt 0) (by omega)
    have t7 := tlv_length 48 (eInt 0 ++ (eBytes old.marshal ++ (eBytes msg ++ (eBytes params ++
      eBytes (signImage P (some priv) (ReissuePacket.image P ⟨0, old.marshal, msg, params, []⟩)))))) (by
        simp only [List.length_append, eBytes, eInt]; omega)
    simp only [List.length_append, eBytes, eInt] at t7 ⊢
    omega
  have hans : i.answer packet = some reply := by
    unfold Issuer.answer
    rw [hpk, hread, Option.bind_some]
    simp only
    rw [hrt, Option.bind_some, if_pos, hsig]
    refine ⟨by trivial, hgood, ?_⟩
    rw [howner]
    exact K.verifies _ _
  -- the stored part
  have hpubl : pub.length < 2 ^ 28 + 2 ^ 27 + 300 := by
    unfold PubKey.marshal at hm
    obtain ⟨u, hu', rfl⟩ := Option.map_eq_some_iff.mp hm
    have hul : u.length ≤ k.usage.length + 6 := by
      unfold eStr at hu'
      split at hu'
      · cases hu'
        have := tlv_length 19 k.usage (by omega)
        omega
      · split at hu'
        · cases hu'
          have := tlv_length 12 k.usage (by omega)
          omega
        · cases hu'
    have t1 := tlv_length 4 k.keyID (by omega)
    have t2 := tlv_length 4 (base256 k.x) (by omega)
    have t3 := tlv_length 4 (base256 k.y) (by omega)
    have t4 : (encInt k.expire).length ≤ 8 := encInt_length 8 k.expire (by omega) (by omega)
    have t5 := tlv_length 2 (encInt k.expire) (by omega)
    have t6 := tlv_length 4 k.signer (by omega)
    have t7 := tlv_length 4 k.signature (by omega)
    have t8 := tlv_length 48 (eBytes k.keyID ++ (eBytes (base256 k.x) ++ (eBytes (base256 k.y) ++ (eInt k.expire ++ (u ++ (eBytes k.signer ++ eBytes k.signature)))))) (by
      simp only [List.length_append, eBytes, eInt]; omega)
    simp only [List.length_append, eBytes, eInt] at t8 ⊢
    omega
  have htk : t.keyID.length = 32 := by rw [n1]; exact hkid.1
  have hto : t.owner.length = 32 := by rw [no]; exact hno
  have htrt : Token.unmarshal t.marshal = some t := C85_round_trip t (by simp [htk, nn, hto, n6, n7, n8, n9])
  have htl : t.marshal.length < 1000 := by
    unfold Token.marshal
    have t1 := tlv_length 4 t.keyID (by omega)
    have t2 := tlv_length 4 t.nonce (by omega)
    have t3 := tlv_length 4 t.owner (by omega)
    have t4 := tlv_length 4 ([] : Bytes) (by simp)
    have t8 := tlv_length 1 [if t.flag then (255 : UInt8) else 0] (by simp)
    simp only [List.length_singleton] at t8
    simp only [List.length_nil] at t4
    rw [n6, n7, n8, n9]
    have t9 := tlv_length 48 (eBytes t.keyID ++ (eBool t.flag ++ (eBytes t.nonce ++ (eBytes t.owner ++
      (eBytes [] ++ (eBytes [] ++ (eBytes [] ++ eBytes []))))))) (by
        simp only [List.length_append, eBytes, eBool]; omega)
    simp only [List.length_append, eBytes, eBool] at t9 ⊢
    omega
  have hlsz : l.publicKey.length + l.factors.length + l.token.length + l.requestHash.length + l.request.length < 2 ^ 30 + 2 ^ 29 := by
    rw [hl']
    simp only [hash32]
    omega
  have hkrt := KeyPool.C91_round_trip c.utf8 k pub hkid.1 hkid.2.1 hkid.2.2 hke (by omega) (by omega) (by omega) hm
  have hunb : unblind P S c.utf8 l.marshal reply = some (addSignature t g).marshal := by
    unfold unblind
    rw [private_round_trip l hlsz, Option.bind_some, hl']
    simp only [hkrt, Option.bind_some]
    rw [if_neg (by simp [hfo])]
    simp only [htrt, Option.bind_some, hun]
    rw [hv]
    simp
  have hnrt : Token.unmarshal (addSignature t g).marshal = some (addSignature t g) := by
    apply C85_round_trip
    simp only [addSignature]
    omega
  have hprop : (addSignature t g).properties = (k.keyID, some newOwner) := by
    unfold Token.properties
    have f1 : (addSignature t g).flag = true := n2
    have f2 : (addSignature t g).keyID = k.keyID := n1
    have f3 : (addSignature t g).owner = newOwner := no
    rw [f1, f2, f3, fix32_of_length hkid.1, fix32_of_length hno]
    rfl
  refine ⟨reply, _, addSignature t g, hans, hunb, hnrt, hprop, ?_, ?_, ?_⟩
  · unfold Signed
    rw [getSignature_add, hash_add, hv]
  · intro ok q hq
    rw [hl] at hq
    cases hq
    exact hu.symm
  · intro env cl c1 _ hbv hg he
    unfold Client.Client.verify
    rw [hnrt]
    simp only
    rw [hprop, hg]
    simp only
    unfold Client.checkToken
    rw [if_neg (by omega), if_pos, hprop]
    rw [hbv]
    simp only [Token.signature]
    have e := getSignature_add t g
    unfold getSignature at e
    rw [e, hash_add, hv]

/-- A token with an owner is not reissued without a key. -/
theorem C124_owner_needed (P : Prims) (S : Scheme) (c : Ctx) (pool : Pool) (r : Rand) (oldEnc : Bytes) (newOwner : Option Bytes)
    (params : Bytes) (old : Token) (ho : Token.unmarshal oldEnc = some old) (hf : old.flag = true) :
    (reissue P S c pool r oldEnc none newOwner params).2 = none := by
  cases h : (reissue P S c pool r oldEnc none newOwner params).2 with
  | none => rfl
  | some x =>
    obtain ⟨packet, l⟩ := x
    obtain ⟨old', _, _, _, _, _, _, ho', _, _, _, _, _, _, _, hr⟩ := reissue_ok (P := P) (S := S) (c := c) (pool := pool) (r := r)
      (oldEnc := oldEnc) (oldOwner := none) (newOwner := newOwner) (params := params) (packet := packet) (l := l)
      (pool' := (reissue P S c pool r oldEnc none newOwner params).1) (by rw [← h])
    rw [ho] at ho'
    cases ho'
    obtain ⟨_, _, _, _, _, _, hf', _⟩ := request_ok hr
    exact absurd rfl (hf' hf)

/-- A spending packet is verified with the owner of the token exactly if it was signed with the key of the owner; without
an owner, exactly if it was not signed. -/
theorem C124_spend (P : Prims) (K : Keys P) (token : Bytes) (priv : Option Bytes) :
    (∀ k, priv = some k → verifyImage P (some (K.pub k)) ((spend P token priv).image P) (spend P token priv).signature = true) ∧
    (verifyImage P none ((spend P token priv).image P) (spend P token priv).signature = true ↔ priv = none) := by
  constructor
  · intro k hk
    subst hk
    exact K.verifies _ _
  · cases priv with
    | none => simp [spend, signImage, verifyImage]
    | some k =>
      have := K.length k ((SpendPacket.mk 1 token []).image P)
      simp [spend, signImage, verifyImage, this]

/-- Violated: asking again for another owner. If a request for a token is already stored, because its reply was lost,
the owner named in a later call is ignored: the call does and returns the same whatever owner is given. -/
theorem C124_other_owner_violated (P : Prims) (env : Reissue.Env) (hash : Bytes) (owner owner' : Option Bytes) (w : Reissue.World)
    (e : Entry) (packet : Bytes) (ho : env.online = true) (hf : Reissue.Free w env hash) (hp : Reissue.Pending env w.db hash e packet) :
    Reissue.reissueToken P env hash owner w = Reissue.reissueToken P env hash owner' w := by
  rw [Reissue.free_run ho hf hp, Reissue.free_run ho hf hp]

/-- Its hypotheses are met by a wallet with a pending token. -/
example : ∃ w : Reissue.World, Reissue.exEnv.online = true ∧ Reissue.Free w Reissue.exEnv [1, 2] ∧
    Reissue.Pending Reissue.exEnv w.db [1, 2] Reissue.exPending [7] := by
  obtain ⟨w, h1, h2, _⟩ := Reissue.pending_exists
  exact ⟨w, rfl, h1, h2⟩

/-! ### A concrete payment -/

/-- A toy hash and signature: the "signature" is 64 bytes and says who signed. -/
private def tP : Prims where
  sha256 b := fix32 ((b.foldl (fun a c => a * 31 + c) 7) :: b.take 31)
  sign k _ := fix64 (k.drop 32)
  verify p _ s := s == fix64 p

private def tS : Scheme where
  params d := if d = [9] then some ((KeyPool.PubKey.marshal (fun _ => true) tKey).getD [], [5], true) else none
  blind _ pp r h := if pp = [5] then some (r, h) else none
  factorsOk _ _ := true
  reply _ b := if b = [] then none else some b
  unblind p _ h b := match b with
    | some _ => some ⟨p.1, p.2, h.length % 256, 1⟩
    | none => some ⟨0, 0, 0, 0⟩
  verify p g h := let ok := g.x = p.1 ∧ g.y = p.2 ∧ g.r = h.length % 256; (ok, ok)
where
  tKey : PubKey := KeyPool.genKey tP [77] 1000 (List.replicate 32 3) (List.replicate 32 1 ++ List.replicate 32 3) 100 6 8

private def tKey : PubKey := tS.tKey
private def tOldKey : PubKey := KeyPool.genKey tP [77] 500 (List.replicate 32 3) (List.replicate 32 1 ++ List.replicate 32 3) 100 4 5
private def tPool : Pool := ((((Pool.new ⟨[], 2592000, none⟩).addVerifyKey (List.replicate 32 3)).loadKey tP 150 tOldKey).1)
private def tOld : Token := ⟨tOldKey.keyID, true, List.replicate 16 2, List.replicate 32 8, [1], [2], [3], [4]⟩
private def tPriv : Bytes := List.replicate 32 7 ++ List.replicate 32 8
private def tRand : Rand := ⟨none, some (List.replicate 16 6), [1, 2, 3]⟩
private def tCtx : Ctx := ⟨fun _ => true, 200, []⟩
private def tIssuer : Issuer tP tS := ⟨fun p m => if p = [9] then some (1 :: m) else none, fun t => t.scalarR = [4]⟩

/-- The old token is reissued to a new owner; the issuer answers, and the reply gives a token of the new owner with a
signature of the new key. -/
example :
    (((reissue tP tS tCtx tPool tRand tOld.marshal (some tPriv) (some (List.replicate 32 12)) [9]).2.bind fun q =>
      (tIssuer.answer q.1).bind fun reply => (unblind tP tS tCtx.utf8 q.2.marshal reply).bind fun n =>
      (Token.unmarshal n).map fun t => (t.properties, decide ((tS.verify (tKey.x, tKey.y) (getSignature t) (t.hash tP)).1 = true))) =
    some ((tKey.keyID, some (List.replicate 32 12)), true)) := by decide +kernel

/-- A reply that cannot be read gives no token. -/
example :
    ((reissue tP tS tCtx tPool tRand tOld.marshal (some tPriv) (some (List.replicate 32 12)) [9]).2.bind fun q =>
      unblind tP tS tCtx.utf8 q.2.marshal []) = none := by decide +kernel

/-- The hypotheses of `C124_payment` about the issuer and the library are met. -/
example : Works tIssuer [9] tKey [5] := by
  intro r h f m hb
  have : (f, m) = (r, h) := by simpa [tS] using hb.symm
  cases this
  refine ⟨rfl, 1 :: h, ⟨6, 8, h.length % 256, 1⟩, rfl, rfl, by simp [tS, tKey, tS.tKey, KeyPool.genKey], ?_⟩
  have h1 := (base256_length_le 6 1).mpr (by decide)
  have h2 := (base256_length_le 8 1).mpr (by decide)
  have h3 := (base256_length_le (h.length % 256) 1).mpr (by omega)
  have h4 := (base256_length_le 1 1).mpr (by decide)
  show (base256 6).length + (base256 8).length + (base256 (h.length % 256)).length + (base256 1).length < 2 ^ 28
  omega

example : Keys tP where
  pub k := k.drop 32
  length k b := by simp [tP, fix64]; omega
  verifies k b := by simp [tP]

example : ∀ b, (tP.sha256 b).length = 32 := by intro b; simp [tP, fix32]; omega

example : Loud tS := by
  intro p g h hv
  exact hv

end Verif.Guard.Packet

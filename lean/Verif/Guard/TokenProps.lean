/-
Properties of tokens, packets, authentication tokens and stored entries: C39, C40, C42, C85.
-/
import Verif.Guard.Token
import Verif.Mix.Lemmas

namespace Verif.Guard
open Verif.Asn1 Verif.Util
open Verif.Mix (unhex unhexDigit fix32 fix64 atoi fix32_of_length)
open Verif.Conf (be64 be64_length be64_inj)

theorem fix64_of_length {b : Bytes} (h : b.length = 64) : fix64 b = b := by
  simp [fix64, h, List.take_of_length_le]

theorem unhex_hex (b : Bytes) : unhex (hex b) = some b := by
  have hd : ∀ n, n < 16 → unhexDigit (hexDigit n) = some n := by decide
  induction b with
  | nil => rfl
  | cons x b ih =>
    have hx := x.toNat_lt
    rw [show hex (x :: b) = hexDigit (x.toNat / 16) :: hexDigit (x.toNat % 16) :: hex b from rfl]
    unfold unhex
    rw [hd _ (by omega), hd _ (by omega), ih]
    simp only [Option.bind_some, Option.map_some]
    rw [show 16 * (x.toNat / 16) + x.toNat % 16 = x.toNat by omega, UInt8.ofNat_toNat]

theorem hex_inj {a b : Bytes} (h : hex a = hex b) : a = b := by
  have := unhex_hex a
  rw [h, unhex_hex] at this
  exact (Option.some.inj this).symm

theorem fromBe64_be64 (n : Nat) (h : n < 2 ^ 64) : fromBe64 (be64 n) = n := by
  simp only [fromBe64, be64, List.range, List.range.loop, List.map_cons, List.map_nil, List.foldl_cons, List.foldl_nil, UInt8.toNat_ofNat']
  simp only [Nat.reduceSub, Nat.reducePow]
  omega

/-! ### C39 stored entries -/

/-- An entry as the client makes it: keys of the right size, an owner, and no empty values
where nil is meant. A new owner is only stored together with parameters or state. -/
structure Entry.Wf (e : Entry) : Prop where
  pub : ∃ k, e.ownerPub = some k ∧ k.length = 32
  priv : ∀ k, e.ownerPriv = some k → k.length = 64
  params : e.params ≠ some []
  packet : e.serverPacket ≠ some []
  blinding : e.blinding ≠ some []
  newPub : ∀ k, e.newOwnerPub = some k → k.length = 32
  newPriv : ∀ k, e.newOwnerPriv = some k → k.length = 64
  kept : e.newOwnerPub ≠ none → e.hasState = true ∨ e.params ≠ none
  size : (e.params.getD []).length + (e.serverPacket.getD []).length + (e.blinding.getD []).length < 2 ^ 30

theorem nonEmpty_getD (o : Option Bytes) (h : o ≠ some []) : nonEmpty (o.getD []) = o := by
  cases o with
  | none => rfl
  | some b =>
    have : b ≠ [] := fun hb => h (by rw [hb])
    simp [nonEmpty, this]

theorem sized_getD (n : Nat) (hn : n ≠ 0) (o : Option Bytes) (h : ∀ k, o = some k → k.length = n) : sized n (o.getD []) = o := by
  cases o with
  | none => simp [sized, Ne.symm hn]
  | some b => simp [sized, h b rfl]

/-- C39, partial: a stored entry is read back exactly as it was written. What is missing are
the entries that are not well-formed, see the theorems below. -/
theorem C39_round_trip_partial (e : Entry) (he : e.Wf) :
    ∃ g s, encodeToken e = .ok (g, s) ∧ decodeToken g s = some e := by
  obtain ⟨pub, hp1, hp2⟩ := he.pub
  have hsz := he.size
  unfold encodeToken
  rw [hp1]
  refine ⟨_, _, rfl, ?_⟩
  unfold decodeToken
  simp only [unhex_hex, Base64.decode_encode, Option.bind_some]
  have e1 : (if e.ownerPriv.isSome = true then Option.map (fun k => some (fix64 k)) (some (e.ownerPriv.getD [])) else some none) = some e.ownerPriv := by
    cases h : e.ownerPriv with
    | none => rfl
    | some k => simp [fix64_of_length (he.priv k h)]
  rw [e1, Option.bind_some, fix32_of_length hp2]
  unfold decodeState
  simp only
  have n1 : (e.newOwnerPub.getD []).length ≤ 32 := by
    cases h : e.newOwnerPub with
    | none => simp
    | some k => simp [he.newPub k h]
  have n2 : (e.newOwnerPriv.getD []).length ≤ 64 := by
    cases h : e.newOwnerPriv with
    | none => simp
    | some k => simp [he.newPriv k h]
  split
  · have t1 := tlv_length 4 (e.params.getD []) (by omega)
    have t2 := tlv_length 4 (e.serverPacket.getD []) (by omega)
    have t3 := tlv_length 4 (e.blinding.getD []) (by omega)
    have t4 := tlv_length 4 (e.newOwnerPub.getD []) (by omega)
    have t5 := tlv_length 4 (e.newOwnerPriv.getD []) (by omega)
    simp only [Base64.decode_encode, Option.bind_some, stateBytes]
    have := readTLV_tlv 48 (eBytes (e.params.getD []) ++ (eBytes (e.serverPacket.getD []) ++ (eBytes (e.blinding.getD []) ++
      (eBytes (e.newOwnerPub.getD []) ++ eBytes (e.newOwnerPriv.getD []))))) (by
        simp only [List.length_append, eBytes]; omega) []
    rw [List.append_nil] at this
    simp only [this, Option.bind_some]
    have last := fBytes_eBytes (e.newOwnerPriv.getD []) (by omega) []
    rw [List.append_nil] at last
    rw [fBytes_eBytes _ (by omega), Option.bind_some]
    simp only
    rw [fBytes_eBytes _ (by omega), Option.bind_some]
    simp only
    rw [fBytes_eBytes _ (by omega), Option.bind_some]
    simp only
    rw [fBytes_eBytes _ (by omega), Option.bind_some]
    simp only
    rw [last, Option.bind_some]
    simp only [nonEmpty_getD _ he.params, nonEmpty_getD _ he.packet, nonEmpty_getD _ he.blinding,
      sized_getD 32 (by decide) _ he.newPub, sized_getD 64 (by decide) _ he.newPriv, ← hp1]
  · rename_i hn
    simp only [Bool.or_eq_true, not_or, Bool.not_eq_true] at hn
    obtain ⟨h1, h2⟩ := hn
    have h3 : e.params = none := by simpa using h2
    unfold Entry.hasState at h1
    simp only [Bool.or_eq_false_iff, Option.isSome_eq_false_iff, Option.isNone_iff_eq_none] at h1
    have h4 : e.newOwnerPub = none := by
      cases h : e.newOwnerPub with
      | none => rfl
      | some k =>
        rcases he.kept (by rw [h]; nofun) with h5 | h5
        · simp [Entry.hasState, h1] at h5
        · exact absurd h3 h5
    obtain ⟨⟨h5, h6⟩, h7⟩ := h1
    cases e
    simp_all

/-- C39, panic: an entry without an owner cannot be stored. `Verify` makes such entries for
tokens without owner. -/
theorem C39_no_owner_panics (e : Entry) (h : e.ownerPub = none) : encodeToken e = .panic := by
  unfold encodeToken; rw [h]

/-- C39, violation: the new owner of an entry without other state is not stored. -/
theorem C39_new_owner_lost (e : Entry) (pub new : Bytes) (hp : e.ownerPub = some pub) (hn : e.newOwnerPub = some new)
    (hs : e.serverPacket = none) (hb : e.blinding = none) (hk : e.newOwnerPriv = none) (hpa : e.params = none) :
    ∃ g s, encodeToken e = .ok (g, s) ∧ ∀ e', decodeToken g s = some e' → e'.newOwnerPub = none := by
  unfold encodeToken
  rw [hp]
  refine ⟨_, _, rfl, ?_⟩
  intro e' h
  unfold decodeToken decodeState at h
  simp only [Entry.hasState, hs, hb, hk, hpa, Option.isSome_none, Bool.or_self, Bool.false_eq_true, if_false] at h
  simp only [Option.bind_eq_some_iff] at h
  obtain ⟨_, _, _, _, _, _, _, _, h⟩ := h
  cases h
  rfl

example : ∃ g s, encodeToken ⟨[1], [2], none, some [], none, true, true, [], 0, none, none, some [1], none⟩ = .ok (g, s) ∧
    (decodeToken g s).map (·.newOwnerPub) = some none := ⟨_, _, rfl, by decide +kernel⟩

/-- Non-vacuity: an entry in the middle of a reissue. -/
def exEntry : Entry :=
  ⟨[1, 2], [3], some [4], some (List.replicate 32 5), some (List.replicate 64 6), true, true, [117], 100, some [7], some [8],
    some (List.replicate 32 9), none⟩

example : exEntry.Wf where
  pub := ⟨_, rfl, by simp⟩
  priv := by intro k hk; cases hk; simp
  params := by decide
  packet := by decide
  blinding := by decide
  newPub := by intro k hk; cases hk; simp
  newPriv := nofun
  kept := fun _ => .inl rfl
  size := by decide

/-! ### C40 wallet authentication -/

/-- A created token has 144 bytes and is accepted with its key, time window and counter. -/
theorem C40_created_accepted (P : Prims) (pub priv random : Bytes) (now counter : Nat)
    (hp : pub.length = 32) (hr : random.length = 32) (hn : now < 2 ^ 64) (hc : counter < 2 ^ 64)
    (hs : ∀ m, (P.sign priv m).length = 64 ∧ P.verify pub m (P.sign priv m) = true) :
    (createAuth P pub priv random now counter).length = 144 ∧
    checkAuth P (createAuth P pub priv random now counter) = some (pub, now / 3600, counter) := by
  unfold createAuth
  simp only
  generalize hb : pub ++ (random ++ (be64 (now / 3600) ++ be64 counter)) = b
  have hbl : b.length = 80 := by rw [← hb]; simp [hp, hr, be64_length]
  have hlen : (b ++ P.sign priv b).length = 144 := by simp [hbl, (hs b).1]
  refine ⟨hlen, ?_⟩
  unfold checkAuth
  rw [if_neg (by omega)]
  have t80 : (b ++ P.sign priv b).take 80 = b := by rw [List.take_append_of_le_length (by omega), List.take_of_length_le (by omega)]
  have d80 : (b ++ P.sign priv b).drop 80 = P.sign priv b := by rw [List.drop_append_of_le_length (by omega), List.drop_of_length_le (by omega)]; rfl
  have t32 : (b ++ P.sign priv b).take 32 = pub := by
    rw [List.take_append_of_le_length (by omega), ← hb, List.take_append_of_le_length (by omega), List.take_of_length_le (by omega)]
  have d64 : (b ++ P.sign priv b).drop 64 = be64 (now / 3600) ++ (be64 counter ++ P.sign priv b) := by
    rw [← List.take_append_drop 64 b, show b.drop 64 = be64 (now / 3600) ++ be64 counter by
      rw [← hb, List.drop_append, List.drop_of_length_le (by omega), hp]
      simp only [List.nil_append]
      rw [List.drop_append, List.drop_of_length_le (by omega), hr]
      simp, List.append_assoc, List.drop_append]
    rw [List.drop_of_length_le (by rw [List.length_take]; omega)]
    rw [List.length_take, hbl]
    simp
  have d72 : (b ++ P.sign priv b).drop 72 = be64 counter ++ P.sign priv b := by
    rw [show (72 : Nat) = 64 + 8 from rfl, ← List.drop_drop, d64, List.drop_append, List.drop_of_length_le (by rw [be64_length]; omega), be64_length]
    rfl
  rw [t80, d80, t32, d64, d72, if_pos (hs b).2]
  rw [List.take_append_of_le_length (by rw [be64_length]; omega), List.take_of_length_le (by rw [be64_length]; omega)]
  rw [List.take_append_of_le_length (by rw [be64_length]; omega), List.take_of_length_le (by rw [be64_length]; omega)]
  rw [fromBe64_be64 _ (by omega), fromBe64_be64 _ hc]

/-- Every accepted byte string has 144 bytes, and its last 64 bytes are a signature over the
first 80, which contain the returned key, time and counter. -/
theorem C40_accepted_signed (P : Prims) (t pub : Bytes) (l c : Nat) (h : checkAuth P t = some (pub, l, c)) :
    t.length = 144 ∧ P.verify pub (t.take 80) (t.drop 80) = true ∧ pub = t.take 32 ∧
    l = fromBe64 ((t.drop 64).take 8) ∧ c = fromBe64 ((t.drop 72).take 8) := by
  unfold checkAuth at h
  split at h
  · cases h
  · rename_i hl
    split at h
    · rename_i hv
      cases h
      exact ⟨by omega, hv, rfl, rfl, rfl⟩
    · cases h

/-- Everything else is rejected: strings of other sizes and bad signatures. -/
theorem C40_rejected (P : Prims) (t : Bytes) (h : t.length ≠ 144 ∨ P.verify (t.take 32) (t.take 80) (t.drop 80) = false) :
    checkAuth P t = none := by
  unfold checkAuth
  rcases h with h | h
  · rw [if_pos h]
  · split
    · rfl
    · rw [h]; rfl

/-- Tokens for different keys, windows or counters differ in the signed bytes. -/
theorem C40_signed_bytes_differ (P : Prims) (t t' : Bytes) (r r' : Bytes × Nat × Nat) (h : checkAuth P t = some r) (h' : checkAuth P t' = some r')
    (hs : t.take 80 = t'.take 80) : r = r' := by
  obtain ⟨a, b, c⟩ := r
  obtain ⟨a', b', c'⟩ := r'
  have h1 := C40_accepted_signed P t a b c h
  have h2 := C40_accepted_signed P t' a' b' c' h'
  have e : ∀ i n, i + n ≤ 80 → (t.drop i).take n = (t'.drop i).take n := by
    intro i n hin
    have e1 : (t.drop i).take n = ((t.take 80).drop i).take n := by rw [List.drop_take, List.take_take, Nat.min_eq_left (by omega)]
    have e2 : (t'.drop i).take n = ((t'.take 80).drop i).take n := by rw [List.drop_take, List.take_take, Nat.min_eq_left (by omega)]
    rw [e1, e2, hs]
  have e3 := e 0 32 (by omega)
  simp only [List.drop_zero] at e3
  rw [h1.2.2.1, h2.2.2.1, h1.2.2.2.1, h2.2.2.2.1, h1.2.2.2.2, h2.2.2.2.2, e3, e 64 8 (by omega), e 72 8 (by omega)]

/-- Toy signatures for the examples. -/
def exPrims : Prims := ⟨fun b => b.take 1, fun _ _ => List.replicate 64 7, fun _ _ s => s == List.replicate 64 7⟩

example : (checkAuth exPrims (createAuth exPrims (List.replicate 32 1) [] (List.replicate 32 2) 7200 5)) = some (List.replicate 32 1, 2, 5) := by
  decide +kernel

/-! ### C42 signed packets -/

theorem callBytes_length (c : Int) : (callBytes c).length = 8 := rfl

theorem callBytes_inj {c d : Int} (hc : -2 ^ 31 ≤ c ∧ c < 2 ^ 31) (hd : -2 ^ 31 ≤ d ∧ d < 2 ^ 31) (h : callBytes c = callBytes d) : c = d := by
  unfold callBytes at h
  have h1 := (List.append_inj h rfl).1
  have h2 : UInt32.ofNat (c % 2 ^ 32).toNat = UInt32.ofNat (d % 2 ^ 32).toNat := by
    have e1 := fromBe32_be32 (UInt32.ofNat (c % 2 ^ 32).toNat)
    have e2 := fromBe32_be32 (UInt32.ofNat (d % 2 ^ 32).toNat)
    unfold be32 at h1 e1 e2
    simp only [List.cons.injEq] at h1
    rw [h1.1, h1.2.1, h1.2.2.1, h1.2.2.2.1] at e1
    exact e1.symm.trans e2
  have h3 := congrArg UInt32.toNat h2
  simp only [UInt32.toNat_ofNat'] at h3
  omega

/-- A hash collision. -/
def Collision (P : Prims) : Prop := ∃ a b, a ≠ b ∧ P.sha256 a = P.sha256 b

theorem hash_eq {P : Prims} {a b : Bytes} (h : P.sha256 a = P.sha256 b) : a = b ∨ Collision P := by
  by_cases e : a = b
  · exact .inl e
  · exact .inr ⟨a, b, e, h⟩

/-- Reissue packets with the same image agree in everything but the signature, unless
SHA-256 collides. -/
theorem C42_reissue_injective (P : Prims) (hP : ∀ b, (P.sha256 b).length = 32) (p q : ReissuePacket)
    (hp : -2 ^ 31 ≤ p.callType ∧ p.callType < 2 ^ 31) (hq : -2 ^ 31 ≤ q.callType ∧ q.callType < 2 ^ 31)
    (h : p.image P = q.image P) :
    (p.callType = q.callType ∧ p.token = q.token ∧ p.blindToken = q.blindToken ∧ p.params = q.params) ∨ Collision P := by
  unfold ReissuePacket.image at h
  obtain ⟨h1, h⟩ := List.append_inj h (by rw [hP, hP])
  obtain ⟨h2, h3⟩ := List.append_inj h (by rw [hP, hP])
  rcases hash_eq h1 with h1 | h1
  · rcases hash_eq h2 with h2 | h2
    · rcases hash_eq h3 with h3 | h3
      · obtain ⟨e1, e2⟩ := List.append_inj h1 rfl
        exact .inl ⟨callBytes_inj hp hq e1, e2, h2, h3⟩
      · exact .inr h3
    · exact .inr h2
  · exact .inr h1

/-- The same for spend packets. -/
theorem C42_spend_injective (P : Prims) (p q : SpendPacket)
    (hp : -2 ^ 31 ≤ p.callType ∧ p.callType < 2 ^ 31) (hq : -2 ^ 31 ≤ q.callType ∧ q.callType < 2 ^ 31)
    (h : p.image P = q.image P) : (p.callType = q.callType ∧ p.token = q.token) ∨ Collision P := by
  rcases hash_eq h with h1 | h1
  · obtain ⟨e1, e2⟩ := List.append_inj h1 rfl
    exact .inl ⟨callBytes_inj hp hq e1, e2⟩
  · exact .inr h1

/-- Packets of the two kinds never have the same image, whatever they contain. -/
theorem C42_kinds_differ (P : Prims) (hP : ∀ b, (P.sha256 b).length = 32) (p : ReissuePacket) (q : SpendPacket) :
    p.image P ≠ q.image P := by
  intro h
  have := congrArg List.length h
  simp [ReissuePacket.image, SpendPacket.image, hP] at this

/-- A signed packet verifies with the key of the signer; an unsigned one only without key. -/
theorem C42_sign_verify (P : Prims) (priv pub image : Bytes)
    (hs : ∀ m, (P.sign priv m).length = 64 ∧ P.verify pub m (P.sign priv m) = true) :
    verifyImage P (some pub) image (signImage P (some priv) image) = true ∧
    verifyImage P none image (signImage P (some priv) image) = false ∧
    verifyImage P none image (signImage P none image) = true := by
  refine ⟨(hs image).2, ?_, rfl⟩
  simp [verifyImage, signImage, (hs image).1]

/-- Non-vacuity: two different packets with different images, with a hash of 32 bytes. -/
def exHash : Prims := { exPrims with sha256 := fun b => b.take 32 ++ List.replicate (32 - b.length) 0 }
example : (∀ b, (exHash.sha256 b).length = 32) ∧
    (ReissuePacket.mk 0 [1] [2] [3] []).image exHash ≠ (ReissuePacket.mk 0 [1] [2] [4] []).image exHash := by
  constructor
  · intro b; simp [exHash]; omega
  · decide

/-! ### C85 what the hash of a token binds -/

/-- A token is read back as it was written. -/
theorem C85_round_trip (t : Token)
    (h : t.keyID.length + t.nonce.length + t.owner.length + t.pointRX.length + t.pointRY.length + t.scalarS.length + t.scalarR.length < 2 ^ 30) :
    Token.unmarshal t.marshal = some t := by
  unfold Token.unmarshal Token.marshal
  have t1 := tlv_length 4 t.keyID (by omega)
  have t2 := tlv_length 4 t.nonce (by omega)
  have t3 := tlv_length 4 t.owner (by omega)
  have t4 := tlv_length 4 t.pointRX (by omega)
  have t5 := tlv_length 4 t.pointRY (by omega)
  have t6 := tlv_length 4 t.scalarS (by omega)
  have t7 := tlv_length 4 t.scalarR (by omega)
  have t8 := tlv_length 1 [if t.flag then (255 : UInt8) else 0] (by simp)
  have this := readTLV_tlv 48 (eBytes t.keyID ++ (eBool t.flag ++ (eBytes t.nonce ++ (eBytes t.owner ++
    (eBytes t.pointRX ++ (eBytes t.pointRY ++ (eBytes t.scalarS ++ eBytes t.scalarR))))))) (by
      simp only [List.length_append, eBytes, eBool]; simp only [List.length_singleton] at t8; omega) []
  rw [List.append_nil] at this
  have last := fBytes_eBytes t.scalarR (by omega) []
  rw [List.append_nil] at last
  simp only [this, Option.bind_some]
  rw [fBytes_eBytes _ (by omega), Option.bind_some]
  simp only
  rw [fBool_eBool, Option.bind_some]
  simp only
  rw [fBytes_eBytes _ (by omega), Option.bind_some]
  simp only
  rw [fBytes_eBytes _ (by omega), Option.bind_some]
  simp only
  rw [fBytes_eBytes _ (by omega), Option.bind_some]
  simp only
  rw [fBytes_eBytes _ (by omega), Option.bind_some]
  simp only
  rw [fBytes_eBytes _ (by omega), Option.bind_some]
  simp only
  rw [last, Option.bind_some]

/-- C85, partial: tokens whose fields have the sizes of `New` and that have the same hash
have the same key, nonce and owner, unless SHA-256 collides. What is missing is that
`Unmarshal` does not check the sizes, see `C85_owner_not_bound`. -/
theorem C85_hash_injective_partial (P : Prims) (t u : Token)
    (ht : t.keyID.length = 32 ∧ t.nonce.length = 16 ∧ t.owner.length = 32)
    (hu : u.keyID.length = 32 ∧ u.nonce.length = 16 ∧ u.owner.length = 32)
    (h : t.hash P = u.hash P) :
    (t.keyID = u.keyID ∧ t.flag = u.flag ∧ t.nonce = u.nonce ∧ t.owner = u.owner) ∨ Collision P := by
  rcases hash_eq h with h1 | h1
  · left
    unfold Token.hashed at h1
    obtain ⟨e1, h1⟩ := List.append_inj h1 (by omega)
    obtain ⟨e2, h1⟩ := List.append_inj h1 (by split <;> split <;> rfl)
    obtain ⟨e3, e4⟩ := List.append_inj h1 (by omega)
    refine ⟨e1, ?_, e3, e4⟩
    cases h2 : t.flag <;> cases h3 : u.flag <;> simp [h2, h3] at e2 ⊢
  · exact .inr h1

/-- The token with the first byte of the owner moved to the nonce. -/
def Token.shifted (t : Token) : Token := { t with nonce := t.nonce ++ t.owner.take 1, owner := t.owner.drop 1 }

/-- C85, violation: every owned token can be changed to another owner without changing its
hash and its signature, and the changed token is well-formed. -/
theorem C85_owner_not_bound (P : Prims) (t : Token) (hf : t.flag = true) (ho : t.owner.length = 32)
    (hz : t.owner.getD 31 0 ≠ 0) :
    t.shifted.hash P = t.hash P ∧ t.shifted.signature = t.signature ∧ t.shifted.properties.1 = t.properties.1 ∧
    t.shifted.properties.2 ≠ t.properties.2 := by
  refine ⟨?_, rfl, rfl, ?_⟩
  · unfold Token.hash Token.hashed Token.shifted
    simp only [List.append_assoc, List.take_append_drop]
  · unfold Token.properties Token.shifted
    simp only [hf, if_true]
    intro h
    have h := Option.some.inj h
    rw [fix32_of_length ho] at h
    have h31 := congrArg (fun l => l.getD 31 0) h
    rw [← h31] at hz
    apply hz
    unfold fix32
    have : (t.owner.drop 1).length = 31 := by simp [ho]
    rw [List.take_of_length_le (by omega), this]
    rw [List.getD_eq_getElem?_getD, List.getElem?_append_right (by omega), this]
    rfl

example : (Token.mk [] true [] (List.replicate 32 5) [] [] [] []).shifted.properties.2 = some (List.replicate 31 5 ++ [0]) := by decide

end Verif.Guard

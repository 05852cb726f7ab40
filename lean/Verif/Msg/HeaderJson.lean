/-
msg/header.go (newHeader, newHeaderPacket) and msg/padding/padding.go with the
concrete JSON encoding: the length of the header (C62).
-/
import Verif.Uid.Json
import Verif.Uid.Props
import Verif.Util.Props

namespace Verif.HJ

open Verif.Uid Verif.Uid.Js
open Verif.Json hiding lit
open Verif.Msg (digitsCount)
open Verif.Util (C56_digits_count)

/-- `header` (header.go:42-60). MaxDelay is always 0 when written. -/
structure Header where
  ciphersuite : Str
  recipientPubHash : Str
  recipientTempHash : Str
  senderIdentity : Str
  senderSessionPub : KeyEntry
  senderIdentityPubHash : Str
  senderIdentityPub : KeyEntry
  nextSenderSessionPub : Option KeyEntry
  nextRecipientSessionPubSeen : Option KeyEntry
  nymAddress : Str
  maxDelay : UInt64
  senderSessionCount : UInt64
  senderMessageCount : UInt64
  senderUID : Str
  senderLastKeychainHash : Str
  status : Nat
  padding : Str
  deriving DecidableEq, Repr

/-- json.Marshal of a header (header.go:153); members in the order of the
struct. -/
def jHeader (h : Header) : Bytes :=
  lit "{\"Ciphersuite\":" ++ (jstr h.ciphersuite ++ (
  lit ",\"RecipientPubHash\":" ++ (jstr h.recipientPubHash ++ (
  lit ",\"RecipientTempHash\":" ++ (jstr h.recipientTempHash ++ (
  lit ",\"SenderIdentity\":" ++ (jstr h.senderIdentity ++ (
  lit ",\"SenderSessionPub\":" ++ (jKE h.senderSessionPub ++ (
  lit ",\"SenderIdentityPubHash\":" ++ (jstr h.senderIdentityPubHash ++ (
  lit ",\"SenderIdentityPub\":" ++ (jKE h.senderIdentityPub ++ (
  lit ",\"NextSenderSessionPub\":" ++ (jopt jKE h.nextSenderSessionPub ++ (
  lit ",\"NextRecipientSessionPubSeen\":" ++ (jopt jKE h.nextRecipientSessionPubSeen ++ (
  lit ",\"NymAddress\":" ++ (jstr h.nymAddress ++ (
  lit ",\"MaxDelay\":" ++ (ju64 h.maxDelay ++ (
  lit ",\"SenderSessionCount\":" ++ (ju64 h.senderSessionCount ++ (
  lit ",\"SenderMessageCount\":" ++ (ju64 h.senderMessageCount ++ (
  lit ",\"SenderUID\":" ++ (jstr h.senderUID ++ (
  lit ",\"SenderLastKeychainHash\":" ++ (jstr h.senderLastKeychainHash ++ (
  lit ",\"Status\":" ++ (jnat h.status ++ (
  lit ",\"Padding\":" ++ (jstr h.padding ++ lit "}")))))))))))))))))))))))))))))))))

/-- `padding.Generate` (padding.go:18-36). `rand` is what the random reader
delivers: as many bytes as are asked for. -/
def generate (B : Cipher.Block) (rand : Nat → Bytes) (length : Nat) : Bytes :=
  if length ≤ 32 then rand length
  else (Cipher.ctrXor B (rand 32) (List.replicate 16 0) 0
    (List.replicate ((1 + length / 16) * 16) 0)).take length

/-- hex.EncodeToString. -/
def hexEncode : Bytes → Str
  | [] => []
  | b :: bs => hexDigit (b / 16) :: hexDigit (b % 16) :: hexEncode bs

/-- The padding string for a padding length (header.go:132-143). -/
def padString (B : Cipher.Block) (rand : Nat → Bytes) (padLen : Nat) : Str :=
  let p := hexEncode (generate B rand (padLen / 2 + padLen % 2))
  if padLen % 2 = 1 then p.take (p.length - 1) else p

inductive HErr where
  | lastEntry | identity | nym | uid | length
  deriving DecidableEq, Repr

/-- `newHeader` (header.go:68-145). `PubHash` and `PubKey` take the first of
PUBKEYS and panic if there is none (uid.go:325-337). -/
def newHeader (P : Prims) (sender recipient : Message) (recipientTempHash : Str)
    (senderSessionPub : KeyEntry) (nextSenderSessionPub nextRecipientSessionPubSeen : Option KeyEntry)
    (nymAddress : Str) (senderSessionCount senderMessageCount : UInt64) (senderLastKeychainHash : Str)
    (rand : Nat → Bytes) (status : Nat) : Res HErr Header :=
  if senderLastKeychainHash.length ≠ 204 then .err .lastEntry else
  match sender.content.pubkeys, recipient.content.pubkeys with
  | spk :: _, rpk :: _ =>
    let uid := jMsg sender
    let id := sender.content.identity
    if 254 < id.length then .err .identity else
    if 1568 < nymAddress.length then .err .nym else
    if 2004 < uid.length then .err .uid else
    let padLen := 1316 + (254 - id.length)
      + (if nextSenderSessionPub.isNone then 247 - 4 else 0)
      + (if nextRecipientSessionPubSeen.isNone then 247 - 4 else 0)
      + (1568 - nymAddress.length)
      + (20 - digitsCount 0) + (20 - digitsCount senderSessionCount)
      + (20 - digitsCount senderMessageCount)
      + (2004 - uid.length)
    .ok { ciphersuite := defaultSuite, recipientPubHash := rpk.hash
          recipientTempHash := recipientTempHash, senderIdentity := id
          senderSessionPub := senderSessionPub, senderIdentityPubHash := spk.hash
          senderIdentityPub := spk, nextSenderSessionPub := nextSenderSessionPub
          nextRecipientSessionPubSeen := nextRecipientSessionPubSeen, nymAddress := nymAddress
          maxDelay := 0, senderSessionCount := senderSessionCount
          senderMessageCount := senderMessageCount, senderUID := uid
          senderLastKeychainHash := senderLastKeychainHash, status := status
          padding := padString P.aes rand padLen }
  | _, _ => .panic

/-- `newHeaderPacket` (header.go:147-170): `box` is box.Seal, which adds 16
bytes; the length is compared as a uint16. -/
def newHeaderPacket (h : Header) (nonce : Bytes) (box : Bytes → Bytes) : Res HErr (Bytes × UInt16 × Bytes) :=
  let enc := box (jHeader h)
  if UInt16.ofNat enc.length ≠ 7168 then .err .length
  else .ok (nonce, UInt16.ofNat enc.length, enc)

/-! ### Lengths of the parts -/

theorem jnat_length_le (n k : Nat) (hk : 0 < k) : (jnat n).length ≤ k ↔ n < 10 ^ k := by
  induction n using jnat.induct generalizing k with
  | case1 n h =>
    rw [jnat, dif_pos h]
    simp only [List.length_singleton]
    have h10 : 10 ^ 1 ≤ 10 ^ k := Nat.pow_le_pow_right (by omega) hk
    omega
  | case2 n h ih =>
    rw [jnat, dif_neg h]
    simp only [List.length_append, List.length_singleton]
    cases k with
    | zero => omega
    | succ k =>
      have e : (jnat (n / 10)).length + 1 ≤ k + 1 ↔ (jnat (n / 10)).length ≤ k := by omega
      rw [e]
      cases k with
      | zero =>
        have := List.length_pos_iff.mpr (jnat_ne_nil (n / 10))
        simp only [Nat.zero_add, Nat.pow_one]
        omega
      | succ k =>
        rw [ih (k + 1) (by omega), Nat.pow_succ 10 (k + 1)]
        omega

theorem ju64_length (u : UInt64) : (ju64 u).length = digitsCount u := by
  rw [C56_digits_count, Nat.toString_eq_repr]
  unfold ju64
  have hp := List.length_pos_iff.mpr (jnat_ne_nil u.toNat)
  have hq := @Nat.length_repr_pos u.toNat
  have h1 := (jnat_length_le u.toNat _ hq).mpr ((Nat.length_repr_le_iff hq).mp (Nat.le_refl _))
  have h2 := (Nat.length_repr_le_iff hp).mpr ((jnat_length_le u.toNat _ hp).mp (Nat.le_refl _))
  omega

theorem ju64_le (u : UInt64) : (ju64 u).length ≤ 20 := by
  refine (jnat_length_le u.toNat 20 (by omega)).mpr ?_
  have := u.toNat_lt
  omega

theorem xors_len16 (a b : Bytes) (h : a.length ≤ 16) (hb : b.length = 16) :
    (Cipher.xors a b).length = a.length := by
  rw [Cipher.xors_length, hb]; omega

theorem ctrBlock_length (iv : Bytes) (i : Nat) : (Cipher.ctrBlock iv i).length = 16 := by
  simp [Cipher.ctrBlock]

theorem ctrXor_length {B : Cipher.Block} (hB : B.Good) (key iv : Bytes) (n i : Nat) (data : Bytes)
    (h : data.length ≤ n) : (Cipher.ctrXor B key iv i data).length = data.length := by
  induction n generalizing i data with
  | zero =>
    have : data = [] := List.length_eq_zero_iff.mp (by omega)
    subst this
    rw [Cipher.ctrXor]; simp
  | succ n ih =>
    rw [Cipher.ctrXor]
    split
    · rename_i h0; rw [h0]
    · rename_i h0
      have := List.length_pos_iff.mpr h0
      rw [List.length_append, ih _ _ (by simp; omega),
        xors_len16 _ _ (by simp; omega) (hB.enc_len _ _ (ctrBlock_length iv i))]
      simp; omega

/-- `Generate` delivers the length it was asked for. -/
theorem generate_length {B : Cipher.Block} (hB : B.Good) (rand : Nat → Bytes)
    (hr : ∀ n, (rand n).length = n) (n : Nat) : (generate B rand n).length = n := by
  unfold generate
  split
  · exact hr n
  · rw [List.length_take, ctrXor_length hB _ _ _ _ _ (Nat.le_refl _), List.length_replicate]
    omega

theorem hexEncode_length (b : Bytes) : (hexEncode b).length = 2 * b.length := by
  induction b with
  | nil => rfl
  | cons x b ih => simp only [hexEncode, List.length_cons, ih]; omega

theorem padString_length {B : Cipher.Block} (hB : B.Good) (rand : Nat → Bytes)
    (hr : ∀ n, (rand n).length = n) (n : Nat) : (padString B rand n).length = n := by
  unfold padString
  simp only
  split
  · rw [List.length_take, hexEncode_length, generate_length hB rand hr]
    omega
  · rw [hexEncode_length, generate_length hB rand hr]
    omega

theorem hexDigit_plain : ∀ b : UInt8, plainByte (hexDigit (b / 16)) = true ∧ plainByte (hexDigit (b % 16)) = true := by
  have h : (List.range 256).all (fun n => plainByte (hexDigit (UInt8.ofNat n / 16)) &&
    plainByte (hexDigit (UInt8.ofNat n % 16))) = true := by decide +kernel
  intro b
  have := List.all_eq_true.mp h b.toNat (List.mem_range.mpr b.toNat_lt)
  rw [UInt8.ofNat_toNat] at this
  simpa using this

theorem hexEncode_plain (b : Bytes) : Plain (hexEncode b) := by
  induction b with
  | nil => intro c hc; simp [hexEncode] at hc
  | cons x b ih =>
    intro c hc
    simp only [hexEncode, List.mem_cons] at hc
    rcases hc with rfl | rfl | hc
    · exact (hexDigit_plain x).1
    · exact (hexDigit_plain x).2
    · exact ih c hc

theorem padString_plain (B : Cipher.Block) (rand : Nat → Bytes) (n : Nat) : Plain (padString B rand n) := by
  unfold padString
  simp only
  split
  · intro c hc
    exact hexEncode_plain _ c (List.mem_of_mem_take hc)
  · exact hexEncode_plain _

theorem enc6_plain : ∀ n, n < 64 → plainByte (Base64.enc6 n) = true := by decide +kernel

/-- Base64 text needs no escaping. -/
theorem base64_plain (b : Bytes) : Plain (Base64.encode b) := by
  intro c hc
  induction b using Base64.encode.induct with
  | case1 => simp [Base64.encode] at hc
  | case2 x =>
    have := x.toNat_lt
    simp only [Base64.encode, List.mem_cons, List.not_mem_nil, or_false] at hc
    rcases hc with rfl | rfl | rfl | rfl
    · exact enc6_plain _ (by omega)
    · exact enc6_plain _ (by omega)
    · decide
    · decide
  | case3 x y =>
    have := x.toNat_lt
    have := y.toNat_lt
    simp only [Base64.encode, List.mem_cons, List.not_mem_nil, or_false] at hc
    rcases hc with rfl | rfl | rfl | rfl
    · exact enc6_plain _ (by omega)
    · exact enc6_plain _ (by omega)
    · exact enc6_plain _ (by omega)
    · decide
  | case4 x y z rest ih =>
    have := x.toNat_lt
    have := y.toNat_lt
    have := z.toNat_lt
    simp only [Base64.encode, List.mem_cons] at hc
    rcases hc with rfl | rfl | rfl | rfl | hc
    · exact enc6_plain _ (by omega)
    · exact enc6_plain _ (by omega)
    · exact enc6_plain _ (by omega)
    · exact enc6_plain _ (by omega)
    · exact ih hc

/-! ### Escaped lengths -/

/-- Escaping the text adds `n` bytes. -/
def Extra (n : Nat) (x : Bytes) : Prop := (esc x).length = x.length + n

theorem Extra.append {a b : Nat} {x y : Bytes} (hx : Extra a x) (hy : Extra b y) : Extra (a + b) (x ++ y) := by
  unfold Extra at *
  rw [esc_append, List.length_append, List.length_append, hx, hy]
  omega

theorem extra_plain {x : Bytes} (h : Plain x) : Extra 0 x := by
  unfold Extra; rw [esc_plain h]; rfl

theorem extra_jstr {x : Bytes} (h : Plain x) : Extra 2 (jstr x) := by
  unfold Extra
  rw [jstr_plain h, esc, esc_append, esc_plain h]
  have : esc [34] = [92, 34] := by decide
  have h2 : escByte 34 = [92, 34] := by decide
  rw [this, h2]
  simp

theorem extra_ju64 (u : UInt64) : Extra 0 (ju64 u) := by
  refine extra_plain fun c hc => ?_
  have hd := jnat_digits u.toNat c hc
  have h : (List.range 256).all (fun n => !isDigit (UInt8.ofNat n) || plainByte (UInt8.ofNat n)) = true := by
    decide +kernel
  have := List.all_eq_true.mp h c.toNat (List.mem_range.mpr c.toNat_lt)
  rw [UInt8.ofNat_toNat, hd] at this
  simpa using this

theorem extra_opt {n m : Nat} {f : α → Bytes} (x : Option α)
    (h : ∀ y, x = some y → Extra n (f y)) (hm : m = if x.isSome then n else 0) : Extra m (jopt f x) := by
  cases x with
  | none => subst hm; show Extra 0 (Json.lit "null"); unfold Extra; decide +kernel
  | some y => subst hm; exact h y rfl

theorem extra_arr1 {n : Nat} {f : α → Bytes} (x : α) (h : Extra n (f x)) : Extra n (jarr f [x]) := by
  have h1 : Extra 0 (Json.lit "[") := by unfold Extra; decide +kernel
  have h2 : Extra 0 (Json.lit "]") := by unfold Extra; decide +kernel
  have := h1.append (h.append h2)
  rw [Nat.zero_add, Nat.add_zero] at this
  exact this

/-- The strings of a key entry need no escaping. -/
structure PlainKE (k : KeyEntry) : Prop where
  suite : Plain k.ciphersuite
  function : Plain k.function
  hash : Plain k.hash
  pubkey : Plain k.pubkey

theorem extra_jKE {k : KeyEntry} (h : PlainKE k) : Extra 16 (jKE k) := by
  have a : Extra 2 (lit "{\"CIPHERSUITE\":") := by unfold Extra; decide +kernel
  have b : Extra 2 (lit ",\"FUNCTION\":") := by unfold Extra; decide +kernel
  have c : Extra 2 (lit ",\"HASH\":") := by unfold Extra; decide +kernel
  have d : Extra 2 (lit ",\"PUBKEY\":") := by unfold Extra; decide +kernel
  have e : Extra 0 (lit "}") := by unfold Extra; decide +kernel
  exact a.append ((extra_jstr h.suite).append (b.append ((extra_jstr h.function).append
    (c.append ((extra_jstr h.hash).append (d.append ((extra_jstr h.pubkey).append e)))))))

/-- UID messages of protocol version 1.0 as `Create` and `Update` make them: one
encryption key, one repository, one cipher suite, no chain link; no string needs
escaping. -/
structure V1 (m : Message) : Prop where
  chainlink : m.content.chainlink = none
  pubkeys : ∃ k, m.content.pubkeys = [k] ∧ PlainKE k
  repouris : ∃ r, m.content.repouris = [r] ∧ Plain r
  suites : ∃ s, m.content.prefs.ciphersuites = [s] ∧ Plain s
  sigkey : PlainKE m.content.sigkey
  escrow : ∀ k, m.content.sigescrow = some k → PlainKE k
  identity : Plain m.content.identity
  lastentry : Plain m.content.lastentry
  mix : Plain m.content.mixaddress
  nym : Plain m.content.nymaddress
  forwardsec : Plain m.content.prefs.forwardsec
  version : Plain m.content.version
  escrowSig : Plain m.escrowSig
  userSig : Plain m.userSig
  selfSig : Plain m.selfSig
  link : Plain m.linkAuthority

/-- The number of quotes in the JSON text of a UID message. -/
theorem extra_jMsg {m : Message} (h : V1 m) :
    Extra (if m.content.sigescrow.isSome then 114 else 98) (jMsg m) := by
  obtain ⟨k, hk, hkp⟩ := h.pubkeys
  obtain ⟨r, hr, hrp⟩ := h.repouris
  obtain ⟨s, hs, hsp⟩ := h.suites
  have q : ∀ l : String, (esc (lit l)).length = (lit l).length + 2 → Extra 2 (lit l) := fun _ h => h
  have z : Extra 0 (lit "}") := by unfold Extra; decide +kernel
  have prefs : Extra 8 (jPrefs m.content.prefs) := by
    unfold jPrefs
    rw [hs]
    exact (q "{\"CIPHERSUITES\":" (by decide +kernel)).append ((extra_arr1 s (extra_jstr hsp)).append
      ((q ",\"FORWARDSEC\":" (by decide +kernel)).append ((extra_jstr h.forwardsec).append z)))
  have content : Extra (if m.content.sigescrow.isSome then 96 else 80) (jContent m.content) := by
    unfold jContent
    rw [hk, hr]
    have := (q "{\"CHAINLINK\":" (by decide +kernel)).append
      ((extra_opt (n := 0) (m := 0) (f := jLink) m.content.chainlink (by rw [h.chainlink]; intro y hy; cases hy)
        (by simp)).append
      ((q ",\"IDENTITY\":" (by decide +kernel)).append ((extra_jstr h.identity).append
      ((q ",\"LASTENTRY\":" (by decide +kernel)).append ((extra_jstr h.lastentry).append
      ((q ",\"MIXADDRESS\":" (by decide +kernel)).append ((extra_jstr h.mix).append
      ((q ",\"MSGCOUNT\":" (by decide +kernel)).append ((extra_ju64 m.content.msgcount).append
      ((q ",\"NOTAFTER\":" (by decide +kernel)).append ((extra_ju64 m.content.notafter).append
      ((q ",\"NOTBEFORE\":" (by decide +kernel)).append ((extra_ju64 m.content.notbefore).append
      ((q ",\"NYMADDRESS\":" (by decide +kernel)).append ((extra_jstr h.nym).append
      ((q ",\"PREFERENCES\":" (by decide +kernel)).append (prefs.append
      ((q ",\"PUBKEYS\":" (by decide +kernel)).append ((extra_arr1 k (extra_jKE hkp)).append
      ((q ",\"REPOURIS\":" (by decide +kernel)).append ((extra_arr1 r (extra_jstr hrp)).append
      ((q ",\"SIGESCROW\":" (by decide +kernel)).append
        ((extra_opt (n := 16) (f := jKE) m.content.sigescrow (fun y hy => extra_jKE (h.escrow y hy)) rfl).append
      ((q ",\"SIGKEY\":" (by decide +kernel)).append ((extra_jKE h.sigkey).append
      ((q ",\"VERSION\":" (by decide +kernel)).append ((extra_jstr h.version).append z)))))))))))))))))))))))))))
    refine cast (congrArg (fun n => Extra n _) ?_) this
    split <;> rfl
  unfold jMsg
  have := (q "{\"ESCROWSIGNATURE\":" (by decide +kernel)).append ((extra_jstr h.escrowSig).append
    ((q ",\"LINKAUTHORITY\":" (by decide +kernel)).append ((extra_jstr h.link).append
    ((q ",\"SELFSIGNATURE\":" (by decide +kernel)).append ((extra_jstr h.selfSig).append
    ((q ",\"UIDContent\":" (by decide +kernel)).append (content.append
    ((q ",\"USERSIGNATURE\":" (by decide +kernel)).append ((extra_jstr h.userSig).append z)))))))))
  refine cast (congrArg (fun n => Extra n _) ?_) this
  split <;> rfl

/-- A key entry as `InitDHKey` makes it. -/
def IsDH (P : Prims) (k : KeyEntry) : Prop := ∃ r p, initDHKey P (some r) = .ok (k, p)

theorem lit_plain {s : String} (h : (lit s).all plainByte = true) : Plain (lit s) :=
  fun c hc => List.all_eq_true.mp h c hc

theorem suite_plain : Plain defaultSuite := lit_plain (by decide +kernel)

theorem isDH_facts {P : Prims} (hP : P.Good) {k : KeyEntry} (h : IsDH P k) :
    PlainKE k ∧ k.hash.length = 88 ∧ (jKE k).length = 247 := by
  obtain ⟨r, p, h⟩ := h
  simp only [initDHKey, Res.ok.injEq, Prod.mk.injEq] at h
  obtain ⟨rfl, -⟩ := h
  have h1 : (Base64.encode (P.sha512 (P.dhPub r))).length = 88 := by
    rw [Base64.encode_length, hP.sha512_len]
  have h2 : (Base64.encode (P.dhPub r)).length = 44 := by
    rw [Base64.encode_length, hP.dhPub_len]
  have hf : Plain (lit "ECDHE25519") := lit_plain (by decide +kernel)
  refine ⟨⟨suite_plain, hf, base64_plain _, base64_plain _⟩, h1, ?_⟩
  simp only [jKE, List.length_append, jstr_plain_length suite_plain, jstr_plain_length hf,
    jstr_plain_length (base64_plain _), h1, h2]
  decide +kernel

/-! ### Senders -/

/-- Users whose messages reach `newHeader`: made by `Create` and any number of
calls of `Update`, from strings that need no escaping in JSON. -/
inductive Made (P : Prims) (escrow : Bool) : Owned → Prop where
  | create {userID mix nym lastEntry : Str} {pfs : Pfs} {later : UInt64} {r1 r2 r3 : Option Bytes}
      {o : Owned} (plain : Plain userID ∧ Plain mix ∧ Plain nym ∧ Plain lastEntry)
      (h : Uid.create P userID escrow mix nym pfs lastEntry later r1 r2 r3 = .ok o) : Made P escrow o
  | update {o o' : Owned} {r : Option Bytes} (m : Made P escrow o) (h : Uid.update P o r = .ok o') :
      Made P escrow o'

theorem ed_plain : Plain (lit "ED25519") := lit_plain (by decide +kernel)

theorem initSigKey_plain {P : Prims} {r : Option Bytes} {k : KeyEntry} {p : Bytes}
    (h : initSigKey P r = .ok (k, p)) : PlainKE k := by
  cases r with
  | none => cases h
  | some r =>
    simp only [initSigKey, Res.ok.injEq, Prod.mk.injEq] at h
    obtain ⟨rfl, -⟩ := h
    exact ⟨suite_plain, ed_plain, base64_plain _, base64_plain _⟩

theorem pfs_plain (p : Pfs) : Plain p.string := by
  cases p <;> exact lit_plain (by decide +kernel)

theorem splitId_plain {id : Str} (h : Plain id) : Plain (splitId' id).2 := by
  unfold splitId' splitId
  split
  · intro c hc
    exact h c (List.dropWhile_sublist _ |>.mem (List.mem_of_mem_tail hc))
  · intro c hc; simp at hc

theorem escrowKey_ok {P : Prims} {b : Bool} {r : Option Bytes} {x : Option KeyEntry}
    (h : escrowKey P b r = .ok x) : x.isSome = b ∧ ∀ k, x = some k → PlainKE k := by
  cases b with
  | false => simp only [escrowKey, Res.ok.injEq] at h; subst h; exact ⟨rfl, fun k hk => by cases hk⟩
  | true =>
    cases r with
    | none => cases h
    | some r =>
      have e : initSigKey P (some r) = .ok (⟨defaultSuite, lit "ED25519", Base64.encode (P.sha512 (P.edPub (P.edPriv r))),
        Base64.encode (P.edPub (P.edPriv r))⟩, P.edPriv r) := rfl
      simp only [escrowKey, e, Res.ok.injEq] at h
      subst h
      exact ⟨rfl, fun k hk => by cases hk; exact initSigKey_plain e⟩

theorem made_v1 {P : Prims} {b : Bool} {o : Owned} (h : Made P b o) :
    V1 o.msg ∧ o.msg.content.sigescrow.isSome = b ∧ ∃ k, o.msg.content.pubkeys = [k] ∧ IsDH P k := by
  induction h with
  | @create userID mix nym lastEntry pfs later r1 r2 r3 o plain h =>
    obtain ⟨hu, hm, hn, hl⟩ := plain
    unfold Uid.create at h
    split at h
    · cases h
    · obtain ⟨sk, hsk, h⟩ := Res.bind_eq_ok.mp h
      obtain ⟨dh, hdh, h⟩ := Res.bind_eq_ok.mp h
      obtain ⟨es, hes, h⟩ := Res.bind_eq_ok.mp h
      obtain ⟨u, -, h⟩ := Res.bind_eq_ok.mp h
      simp only [Res.ok.injEq] at h
      subst h
      obtain ⟨he, hep⟩ := escrowKey_ok hes
      have hd : IsDH P dh.1 := by
        cases r2 with
        | none => cases hdh
        | some r => exact ⟨r, dh.2, hdh⟩
      have hdp : PlainKE dh.1 := by
        cases r2 with
        | none => cases hdh
        | some r =>
          simp only [initDHKey, Res.ok.injEq] at hdh
          subst hdh
          exact ⟨suite_plain, lit_plain (by decide +kernel), base64_plain _, base64_plain _⟩
      have h0 : Plain ([] : Str) := fun c hc => by simp at hc
      have hif : ∀ {x : Str}, Plain x → Plain (if pfs = .optional then x else []) := by
        intro x hx; split
        · exact hx
        · exact h0
      exact ⟨⟨rfl, ⟨_, rfl, hdp⟩, ⟨_, rfl, splitId_plain hu⟩, ⟨_, rfl, suite_plain⟩, initSigKey_plain hsk, hep, hu, hl,
        hif hm, hif hn, pfs_plain pfs, lit_plain (by decide +kernel), h0, h0, base64_plain _, h0⟩, he, _, rfl, hd⟩
  | @update o o' r m h ih =>
    obtain ⟨v, he, hk⟩ := ih
    unfold Uid.update at h
    obtain ⟨⟨sk, sp⟩, hsk, h⟩ := Res.bind_eq_ok.mp h
    simp only at h
    split at h
    · split at h
      · cases h
      · split at h
        · cases h
        · simp only [Res.ok.injEq] at h
          subst h
          exact ⟨⟨v.chainlink, v.pubkeys, v.repouris, v.suites, initSigKey_plain hsk, v.escrow, v.identity,
            v.lastentry, v.mix, v.nym, v.forwardsec, v.version, v.escrowSig, base64_plain _, base64_plain _, v.link⟩,
            he, hk⟩
    · cases h

/-! ### The length of the header -/

theorem digits_le (u : UInt64) : digitsCount u ≤ 20 := ju64_length u ▸ ju64_le u

theorem jopt_length {P : Prims} (hP : P.Good) (x : Option KeyEntry) (h : ∀ k, x = some k → IsDH P k) :
    (jopt jKE x).length + (if x.isNone then 243 else 0) = 247 := by
  cases x with
  | none => show (Json.lit "null").length + 243 = 247; decide +kernel
  | some k => exact (isDH_facts hP (h k rfl)).2.2

/-- Inputs of `newHeader` as `Encrypt` has them when both users use the program:
session keys made by `InitDHKey`, a hash of such a key as temporary hash, a nym
address and hash chain entry that need no escaping, a known status. -/
structure Inputs (P : Prims) (recipient : Message) (tempHash : Str) (ssp : KeyEntry)
    (nssp nrsp : Option KeyEntry) (nym last : Str) (rand : Nat → Bytes) (status : Nat) : Prop where
  recipient : ∃ k ks, recipient.content.pubkeys = k :: ks ∧ IsDH P k
  temp : ∃ k, IsDH P k ∧ tempHash = k.hash
  ssp : IsDH P ssp
  nssp : ∀ k, nssp = some k → IsDH P k
  nrsp : ∀ k, nrsp = some k → IsDH P k
  nym : Plain nym
  last : Plain last
  rand : ∀ n, (rand n).length = n
  status : status ≤ 2

theorem jHeader_length {P : Prims} (hP : P.Good) {o : Owned} {b : Bool} (ho : Made P b o) {recipient : Message}
    {tempHash : Str} {ssp : KeyEntry} {nssp nrsp : Option KeyEntry} {nym last : Str} {sc mc : UInt64}
    {rand : Nat → Bytes} {status : Nat} (hi : Inputs P recipient tempHash ssp nssp nrsp nym last rand status)
    {h : Header} (hh : newHeader P o.msg recipient tempHash ssp nssp nrsp nym sc mc last rand status = .ok h) :
    (jHeader h).length = if b then 7168 else 7152 := by
  obtain ⟨v, he, k, hk, hd⟩ := made_v1 ho
  obtain ⟨rk, rks, hr, hrd⟩ := hi.recipient
  unfold newHeader at hh
  split at hh
  · cases hh
  rename_i hlast
  rw [hk, hr] at hh
  simp only at hh
  split at hh
  · cases hh
  split at hh
  · cases hh
  split at hh
  · cases hh
  rename_i h1 h2 h3
  simp only [Res.ok.injEq] at hh
  subst hh
  have hx := extra_jMsg v
  rw [he] at hx
  obtain ⟨t, ht, rfl⟩ := hi.temp
  have uid : (jstr (jMsg o.msg)).length = (jMsg o.msg).length + (if b then 114 else 98) + 2 := by
    unfold Extra at hx
    simp only [jstr, List.length_append, List.length_cons, List.length_nil, hx]
  have st : (jnat status).length = 1 := by
    rw [jnat, dif_pos (by have := hi.status; omega)]; rfl
  have e1 := jopt_length hP nssp hi.nssp
  have e2 := jopt_length hP nrsp hi.nrsp
  have d0 := digits_le 0
  have d1 := digits_le sc
  have d2 := digits_le mc
  have suite : defaultSuite.length = 51 := by decide +kernel
  have k0 : (lit "{\"Ciphersuite\":").length = 15 := by decide +kernel
  have k1 : (lit ",\"RecipientPubHash\":").length = 20 := by decide +kernel
  have k2 : (lit ",\"RecipientTempHash\":").length = 21 := by decide +kernel
  have k3 : (lit ",\"SenderIdentity\":").length = 18 := by decide +kernel
  have k4 : (lit ",\"SenderSessionPub\":").length = 20 := by decide +kernel
  have k5 : (lit ",\"SenderIdentityPubHash\":").length = 25 := by decide +kernel
  have k6 : (lit ",\"SenderIdentityPub\":").length = 21 := by decide +kernel
  have k7 : (lit ",\"NextSenderSessionPub\":").length = 24 := by decide +kernel
  have k8 : (lit ",\"NextRecipientSessionPubSeen\":").length = 31 := by decide +kernel
  have k9 : (lit ",\"NymAddress\":").length = 14 := by decide +kernel
  have k10 : (lit ",\"MaxDelay\":").length = 12 := by decide +kernel
  have k11 : (lit ",\"SenderSessionCount\":").length = 22 := by decide +kernel
  have k12 : (lit ",\"SenderMessageCount\":").length = 22 := by decide +kernel
  have k13 : (lit ",\"SenderUID\":").length = 13 := by decide +kernel
  have k14 : (lit ",\"SenderLastKeychainHash\":").length = 26 := by decide +kernel
  have k15 : (lit ",\"Status\":").length = 10 := by decide +kernel
  have k16 : (lit ",\"Padding\":").length = 11 := by decide +kernel
  have k17 : (lit "}").length = 1 := by decide +kernel
  have hlast' : last.length = 204 := Decidable.not_not.mp hlast
  simp only [jHeader, List.length_append, uid, st, ju64_length,
    jstr_plain_length suite_plain, jstr_plain_length (isDH_facts hP hrd).1.hash,
    jstr_plain_length (isDH_facts hP ht).1.hash, jstr_plain_length (isDH_facts hP hd).1.hash,
    jstr_plain_length v.identity, jstr_plain_length hi.nym, jstr_plain_length hi.last,
    jstr_plain_length (padString_plain _ _ _), padString_length hP.aes rand hi.rand,
    (isDH_facts hP hrd).2.1, (isDH_facts hP ht).2.1, (isDH_facts hP hd).2.1, (isDH_facts hP hd).2.2,
    (isDH_facts hP hi.ssp).2.2, k0, k1, k2, k3, k4, k5, k6, k7, k8, k9, k10, k11, k12, k13, k14, k15, k16, k17,
    suite, hlast']
  clear hx uid
  clear he v hk hr
  simp only [Nat.reduceSub]
  generalize (jopt jKE nssp).length = a1 at *
  generalize (jopt jKE nrsp).length = a2 at *
  generalize (if nssp.isNone = true then 243 else 0) = x1 at *
  generalize (if nrsp.isNone = true then 243 else 0) = x2 at *
  generalize digitsCount 0 = c0 at *
  generalize digitsCount sc = c1 at *
  generalize digitsCount mc = c2 at *
  generalize (jMsg o.msg).length = l1 at *
  generalize o.msg.content.identity.length = l2 at *
  generalize nym.length = l3 at *
  clear k0 k1 k2 k3 k4 k5 k6 k7 k8 k9 k10 k11 k12 k13 k14 k15 k16 k17 suite st hlast hlast' hi hd hrd ht hP ho
  obtain ⟨y1, g1⟩ : ∃ y, y = 254 - l2 := ⟨_, rfl⟩
  obtain ⟨y2, g2⟩ : ∃ y, y = 1568 - l3 := ⟨_, rfl⟩
  obtain ⟨y3, g3⟩ : ∃ y, y = 2004 - l1 := ⟨_, rfl⟩
  obtain ⟨z0, w0⟩ : ∃ y, y = 20 - c0 := ⟨_, rfl⟩
  obtain ⟨z1, w1⟩ : ∃ y, y = 20 - c1 := ⟨_, rfl⟩
  obtain ⟨z2, w2⟩ : ∃ y, y = 20 - c2 := ⟨_, rfl⟩
  rw [← g1, ← g2, ← g3, ← w0, ← w1, ← w2]
  replace g1 : y1 + l2 = 254 := by omega
  replace g2 : y2 + l3 = 1568 := by omega
  replace g3 : y3 + l1 = 2004 := by omega
  replace w0 : z0 + c0 = 20 := by omega
  replace w1 : z1 + c1 = 20 := by omega
  replace w2 : z2 + c2 = 20 := by omega
  clear h1 h2 h3 d0 d1 d2
  cases b
  · simp +arith only [Bool.false_eq_true, if_false]; omega
  · simp +arith only [if_true]; omega

/-- C62 (users created without signature escrow, as the program creates them):
every header has 7152 bytes of JSON, whatever the identity, the nym address, the
counters, the presence of the optional keys and the number of updates, and
encrypting it (box.Seal adds 16 bytes) succeeds with the required length. -/
theorem C62_header_length_partial (P : Prims) (hP : P.Good) (o : Owned) (ho : Made P false o) (recipient : Message)
    (tempHash : Str) (ssp : KeyEntry) (nssp nrsp : Option KeyEntry) (nym last : Str) (sc mc : UInt64)
    (rand : Nat → Bytes) (status : Nat) (hi : Inputs P recipient tempHash ssp nssp nrsp nym last rand status)
    (h : Header) (hh : newHeader P o.msg recipient tempHash ssp nssp nrsp nym sc mc last rand status = .ok h)
    (box : Bytes → Bytes) (hbox : ∀ m, (box m).length = m.length + 16) (nonce : Bytes) :
    (jHeader h).length = 7152 ∧
      ∃ ct, newHeaderPacket h nonce box = .ok (nonce, 7168, ct) ∧ ct.length = 7168 := by
  have hl := jHeader_length hP ho hi hh
  simp only [Bool.false_eq_true, if_false] at hl
  refine ⟨hl, box (jHeader h), ?_, by rw [hbox, hl]⟩
  unfold newHeaderPacket
  simp only [hbox, hl]
  rfl

/-- `newHeader` fails for such users exactly if a field exceeds its limit. -/
theorem C62_header_fails_only_on_limits (P : Prims) (b : Bool) (o : Owned) (ho : Made P b o) (recipient : Message)
    (tempHash : Str) (ssp : KeyEntry) (nssp nrsp : Option KeyEntry) (nym last : Str) (sc mc : UInt64)
    (rand : Nat → Bytes) (status : Nat) (hi : Inputs P recipient tempHash ssp nssp nrsp nym last rand status) :
    (∃ h, newHeader P o.msg recipient tempHash ssp nssp nrsp nym sc mc last rand status = .ok h) ↔
      last.length = 204 ∧ o.msg.content.identity.length ≤ 254 ∧ nym.length ≤ 1568 ∧ (jMsg o.msg).length ≤ 2004 := by
  obtain ⟨v, he, k, hk, hd⟩ := made_v1 ho
  obtain ⟨rk, rks, hr, hrd⟩ := hi.recipient
  unfold newHeader
  rw [hk, hr]
  simp only
  constructor
  · rintro ⟨h, hh⟩
    split at hh
    · cases hh
    split at hh
    · cases hh
    split at hh
    · cases hh
    split at hh
    · cases hh
    rename_i h0 h1 h2 h3
    exact ⟨Decidable.not_not.mp h0, by omega, by omega, by omega⟩
  · rintro ⟨h0, h1, h2, h3⟩
    rw [if_neg (by simp [h0]), if_neg (by omega), if_neg (by omega), if_neg (by omega)]
    exact ⟨_, rfl⟩

/-- Against C62: for a user created with signature escrow every header is 16 bytes
too long, and no message can be encrypted. -/
theorem C62_escrow_breaks_length (P : Prims) (hP : P.Good) (o : Owned) (ho : Made P true o) (recipient : Message)
    (tempHash : Str) (ssp : KeyEntry) (nssp nrsp : Option KeyEntry) (nym last : Str) (sc mc : UInt64)
    (rand : Nat → Bytes) (status : Nat) (hi : Inputs P recipient tempHash ssp nssp nrsp nym last rand status)
    (h : Header) (hh : newHeader P o.msg recipient tempHash ssp nssp nrsp nym sc mc last rand status = .ok h)
    (box : Bytes → Bytes) (hbox : ∀ m, (box m).length = m.length + 16) (nonce : Bytes) :
    newHeaderPacket h nonce box = .err .length := by
  have hl := jHeader_length hP ho hi hh
  simp only [if_true] at hl
  unfold newHeaderPacket
  simp only [hbox, hl]
  rfl

/-! ### The length of the UID message -/

theorem sigKey_length {P : Prims} (hP : P.Good) {r : Option Bytes} {k : KeyEntry} {p : Bytes}
    (h : initSigKey P r = .ok (k, p)) : (jKE k).length = 244 := by
  cases r with
  | none => cases h
  | some r =>
    simp only [initSigKey, Res.ok.injEq, Prod.mk.injEq] at h
    obtain ⟨rfl, -⟩ := h
    have h1 : (Base64.encode (P.sha512 (P.edPub (P.edPriv r)))).length = 88 := by
      rw [Base64.encode_length, hP.sha512_len]
    have h2 : (Base64.encode (P.edPub (P.edPriv r))).length = 44 := by
      rw [Base64.encode_length, hP.edPub_len]
    simp only [jKE, List.length_append, jstr_plain_length suite_plain, jstr_plain_length ed_plain,
      jstr_plain_length (base64_plain _), h1, h2]
    decide +kernel

/-- What `Create` and `Update` fix of a UID message. -/
structure Sizes (m : Message) : Prop where
  sigkey : (jKE m.content.sigkey).length = 244
  selfSig : m.selfSig.length = 88
  userSig : m.userSig.length ≤ 88
  escrowSig : m.escrowSig = []
  link : m.linkAuthority = []
  forwardsec : m.content.prefs.forwardsec.length ≤ 9
  version : m.content.version = lit "1.0"
  suites : m.content.prefs.ciphersuites = [defaultSuite]
  repouris : m.content.repouris = [(splitId' m.content.identity).2]

theorem made_sizes {P : Prims} (hP : P.Good) (hsig : ∀ k m, (P.sign k m).length = 64) {b : Bool} {o : Owned}
    (h : Made P b o) : Sizes o.msg := by
  induction h with
  | @create userID mix nym lastEntry pfs later r1 r2 r3 o plain h =>
    unfold Uid.create at h
    split at h
    · cases h
    · obtain ⟨sk, hsk, h⟩ := Res.bind_eq_ok.mp h
      obtain ⟨dh, hdh, h⟩ := Res.bind_eq_ok.mp h
      obtain ⟨es, hes, h⟩ := Res.bind_eq_ok.mp h
      obtain ⟨u, -, h⟩ := Res.bind_eq_ok.mp h
      simp only [Res.ok.injEq] at h
      subst h
      refine ⟨sigKey_length hP hsk, ?_, Nat.zero_le _, rfl, rfl, ?_, rfl, rfl, rfl⟩
      · show (Base64.encode _).length = 88
        rw [Base64.encode_length, hsig]
      · show pfs.string.length ≤ 9
        cases pfs <;> decide +kernel
  | @update o o' r m h ih =>
    unfold Uid.update at h
    obtain ⟨⟨sk, sp⟩, hsk, h⟩ := Res.bind_eq_ok.mp h
    simp only at h
    split at h
    · split at h
      · cases h
      · split at h
        · cases h
        · simp only [Res.ok.injEq] at h
          subst h
          refine ⟨sigKey_length hP hsk, ?_, ?_, ih.escrowSig, ih.link, ih.forwardsec, ih.version, ih.suites, ih.repouris⟩
          · show (Base64.encode _).length = 88
            rw [Base64.encode_length, hsig]
          · show (Base64.encode _).length ≤ 88
            rw [Base64.encode_length, hsig]
            omega
    · cases h

theorem escrowKey_length {P : Prims} (hP : P.Good) {b : Bool} {r : Option Bytes} {k : KeyEntry}
    (h : escrowKey P b r = .ok (some k)) : (jKE k).length = 244 := by
  unfold escrowKey at h
  split at h
  · cases h
  · rename_i heq
    cases h
    exact sigKey_length hP heq
  · cases h
  · cases h

theorem made_escrow {P : Prims} (hP : P.Good) {b : Bool} {o : Owned} (h : Made P b o) :
    ∀ k, o.msg.content.sigescrow = some k → (jKE k).length = 244 := by
  induction h with
  | @create userID mix nym lastEntry pfs later r1 r2 r3 o plain h =>
    unfold Uid.create at h
    split at h
    · cases h
    · obtain ⟨sk, hsk, h⟩ := Res.bind_eq_ok.mp h
      obtain ⟨dh, hdh, h⟩ := Res.bind_eq_ok.mp h
      obtain ⟨es, hes, h⟩ := Res.bind_eq_ok.mp h
      obtain ⟨u, -, h⟩ := Res.bind_eq_ok.mp h
      simp only [Res.ok.injEq] at h
      subst h
      intro k hk
      have hk : es = some k := hk
      subst hk
      exact escrowKey_length hP hes
  | @update o o' r m h ih =>
    unfold Uid.update at h
    obtain ⟨⟨sk, sp⟩, hsk, h⟩ := Res.bind_eq_ok.mp h
    simp only at h
    split at h
    · split at h
      · cases h
      · split at h
        · cases h
        · simp only [Res.ok.injEq] at h
          subst h
          exact ih
    · cases h

theorem splitId_length (id : Str) : (splitId' id).2.length ≤ id.length := by
  unfold splitId' splitId
  split
  · have := (List.dropWhile_sublist (l := id) (· ≠ 64)).length_le
    simp only [Option.getD_some, List.length_tail]
    omega
  · simp

theorem jarr1_length {f : α → Bytes} (x : α) : (jarr f [x]).length = (f x).length + 2 := by
  show (Json.lit "[" ++ (f x ++ Json.lit "]")).length = _
  rw [List.length_append, List.length_append]
  have h1 : (Json.lit "[").length = 1 := by decide +kernel
  have h2 : (Json.lit "]").length = 1 := by decide +kernel
  omega

theorem jMsg_length_le {P : Prims} (hP : P.Good) (hsig : ∀ k m, (P.sign k m).length = 64) {b : Bool} {o : Owned}
    (ho : Made P b o) (hm : o.msg.content.mixaddress = [])
    (hn : o.msg.content.nymaddress = []) (hl : o.msg.content.lastentry.length ≤ 204) :
    (jMsg o.msg).length ≤ 1320 + o.msg.content.identity.length + (splitId' o.msg.content.identity).2.length +
      (if b then 244 else 4) := by
  obtain ⟨v, he, k, hk, hd⟩ := made_v1 ho
  obtain ⟨s1, s2, s3, s4, s5, s6, s7, s8, s9⟩ := made_sizes hP hsig ho
  have hr := splitId_length o.msg.content.identity
  have hrp := splitId_plain v.identity
  have c1 := ju64_le o.msg.content.msgcount
  have c2 := ju64_le o.msg.content.notafter
  have c3 := ju64_le o.msg.content.notbefore
  have hes : (jopt jKE o.msg.content.sigescrow).length = if b then 244 else 4 := by
    have h2 : (jopt jKE none).length = 4 := by decide +kernel
    cases h : o.msg.content.sigescrow with
    | none => rw [h] at he; subst he; exact h2
    | some x => rw [h] at he; subst he; exact made_escrow hP ho x h
  have h0 : Plain ([] : Str) := fun c hc => by simp at hc
  have hv : (jstr (lit "1.0")).length = 5 := by decide +kernel
  have hnil1 : (jopt jLink none).length = 4 := by decide +kernel
  have suite : defaultSuite.length = 51 := by decide +kernel
  have p : (jPrefs o.msg.content.prefs).length ≤ 97 := by
    unfold jPrefs
    rw [s8]
    have a : (lit "{\"CIPHERSUITES\":").length = 16 := by decide +kernel
    have b : (lit ",\"FORWARDSEC\":").length = 14 := by decide +kernel
    have c : (lit "}").length = 1 := by decide +kernel
    simp only [List.length_append, jarr1_length, jstr_plain_length suite_plain, jstr_plain_length v.forwardsec, a, b, c,
      suite]
    omega
  have c : (jContent o.msg.content).length ≤ 1051 + o.msg.content.identity.length +
      (splitId' o.msg.content.identity).2.length + (if b then 244 else 4) := by
    unfold jContent
    rw [v.chainlink, hm, hn, hk, s9, s7]
    have k0 : (lit "{\"CHAINLINK\":").length = 13 := by decide +kernel
    have k1 : (lit ",\"IDENTITY\":").length = 12 := by decide +kernel
    have k2 : (lit ",\"LASTENTRY\":").length = 13 := by decide +kernel
    have k3 : (lit ",\"MIXADDRESS\":").length = 14 := by decide +kernel
    have k4 : (lit ",\"MSGCOUNT\":").length = 12 := by decide +kernel
    have k5 : (lit ",\"NOTAFTER\":").length = 12 := by decide +kernel
    have k6 : (lit ",\"NOTBEFORE\":").length = 13 := by decide +kernel
    have k7 : (lit ",\"NYMADDRESS\":").length = 14 := by decide +kernel
    have k8 : (lit ",\"PREFERENCES\":").length = 15 := by decide +kernel
    have k9 : (lit ",\"PUBKEYS\":").length = 11 := by decide +kernel
    have k10 : (lit ",\"REPOURIS\":").length = 12 := by decide +kernel
    have k11 : (lit ",\"SIGESCROW\":").length = 13 := by decide +kernel
    have k12 : (lit ",\"SIGKEY\":").length = 10 := by decide +kernel
    have k13 : (lit ",\"VERSION\":").length = 11 := by decide +kernel
    have k14 : (lit "}").length = 1 := by decide +kernel
    simp only [List.length_append, jarr1_length, jstr_plain_length v.identity, jstr_plain_length v.lastentry,
      jstr_plain_length h0, hnil1, hes, jstr_plain_length hrp, s1, hv, (isDH_facts hP hd).2.2, k0, k1, k2, k3, k4, k5, k6, k7, k8, k9,
      k10, k11, k12, k13, k14, List.length_nil]
    clear k0 k1 k2 k3 k4 k5 k6 k7 k8 k9 k10 k11 k12 k13 k14 suite s1 s2 s3 s6
    generalize (if b = true then 244 else 4) = x
    simp +arith only []
    omega
  unfold jMsg
  rw [s4, s5]
  have k0 : (lit "{\"ESCROWSIGNATURE\":").length = 19 := by decide +kernel
  have k1 : (lit ",\"LINKAUTHORITY\":").length = 17 := by decide +kernel
  have k2 : (lit ",\"SELFSIGNATURE\":").length = 17 := by decide +kernel
  have k3 : (lit ",\"UIDContent\":").length = 14 := by decide +kernel
  have k4 : (lit ",\"USERSIGNATURE\":").length = 17 := by decide +kernel
  have k5 : (lit "}").length = 1 := by decide +kernel
  simp only [List.length_append, jstr_plain_length h0, jstr_plain_length v.selfSig, jstr_plain_length v.userSig, s2,
    k0, k1, k2, k3, k4, k5, List.length_nil]
  generalize (if b = true then 244 else 4) = x at *
  omega

/-- C62, without any condition on lengths that the code computes itself: users
created by the program (no escrow key, no published address), with an identity of
at most 254 bytes (as `Map` enforces) and a hash chain entry of the right size,
can always send: after any number of updates, the header is built and encrypted
with the required length. -/
theorem C62_own_users_can_send_partial (P : Prims) (hP : P.Good) (hsig : ∀ k m, (P.sign k m).length = 64) (o : Owned)
    (ho : Made P false o) (hid : o.msg.content.identity.length ≤ 254) (hm : o.msg.content.mixaddress = [])
    (hn : o.msg.content.nymaddress = []) (hle : o.msg.content.lastentry.length = 204) (recipient : Message)
    (tempHash : Str) (ssp : KeyEntry) (nssp nrsp : Option KeyEntry) (nym last : Str) (sc mc : UInt64)
    (rand : Nat → Bytes) (status : Nat) (hi : Inputs P recipient tempHash ssp nssp nrsp nym last rand status)
    (hnym : nym.length ≤ 1568) (hlast : last.length = 204)
    (box : Bytes → Bytes) (hbox : ∀ m, (box m).length = m.length + 16) (nonce : Bytes) :
    ∃ h ct, newHeader P o.msg recipient tempHash ssp nssp nrsp nym sc mc last rand status = .ok h ∧
      newHeaderPacket h nonce box = .ok (nonce, 7168, ct) ∧ ct.length = 7168 := by
  obtain ⟨h, hh⟩ := (C62_header_fails_only_on_limits P false o ho recipient tempHash ssp nssp nrsp nym last sc mc rand
    status hi).mpr ⟨hlast, hid, hnym, by
      have h1 := jMsg_length_le hP hsig ho hm hn (by omega)
      have h2 := splitId_length o.msg.content.identity
      simp only [Bool.false_eq_true, if_false] at h1
      omega⟩
  obtain ⟨-, ct, h1, h2⟩ := C62_header_length_partial P hP o ho recipient tempHash ssp nssp nrsp nym last sc mc rand
    status hi h hh box hbox nonce
  exact ⟨h, ct, hh, h1, h2⟩

/-! ### Other headers -/

/-- The key entry with a line break after its hash. -/
def withBreak (k : KeyEntry) : KeyEntry := { k with hash := k.hash ++ [10] }

/-- Base64 decoding skips line breaks, so that such a key entry of a peer passes
`Verify`. -/
theorem verify_withBreak {P : Prims} (hP : P.Good) {k : KeyEntry} (hk : IsDH P k) :
    keyEntryVerify P (withBreak k) = .ok () := by
  obtain ⟨r, p, h⟩ := hk
  simp only [initDHKey, Res.ok.injEq, Prod.mk.injEq] at h
  obtain ⟨rfl, -⟩ := h
  have hd : Base64.decode (Base64.encode (P.sha512 (P.dhPub r)) ++ [10]) = some (P.sha512 (P.dhPub r)) := by
    refine Base64.decode_of_filter ?_
    rw [List.filter_append, Base64.filter_noBreak (Base64.encode_noBreak _)]
    exact List.append_nil _
  simp only [keyEntryVerify, withBreak, hd, hP.sha512_len, Base64.decode_encode, hP.dhPub_len]
  simp

theorem jKE_withBreak (k : KeyEntry) : (jKE (withBreak k)).length = (jKE k).length + 2 := by
  have : (esc [10]).length = 2 := by decide +kernel
  simp only [jKE, withBreak, jstr, esc_append, List.length_append, List.length_cons, List.length_nil, this]
  omega

/-- Against C62: a peer announces a session key with a line break in its hash. The
entry passes `Verify`, and no reply to that peer can be encrypted while it is the
key that was seen. -/
theorem C62_peer_key_breaks_length (P : Prims) (hP : P.Good) (o : Owned) (ho : Made P false o) (recipient : Message)
    (tempHash : Str) (ssp : KeyEntry) (nssp : Option KeyEntry) (k : KeyEntry) (nym last : Str) (sc mc : UInt64)
    (rand : Nat → Bytes) (status : Nat) (hi : Inputs P recipient tempHash ssp nssp (some k) nym last rand status)
    (h : Header) (hh : newHeader P o.msg recipient tempHash ssp nssp (some k) nym sc mc last rand status = .ok h)
    (box : Bytes → Bytes) (hbox : ∀ m, (box m).length = m.length + 16) (nonce : Bytes) :
    keyEntryVerify P (withBreak k) = .ok () ∧
    ∃ h', newHeader P o.msg recipient tempHash ssp nssp (some (withBreak k)) nym sc mc last rand status = .ok h' ∧
      newHeaderPacket h' nonce box = .err .length := by
  have hl := jHeader_length hP ho hi hh
  simp only [Bool.false_eq_true, if_false] at hl
  refine ⟨verify_withBreak hP (hi.nrsp k rfl), { h with nextRecipientSessionPubSeen := some (withBreak k) }, ?_, ?_⟩
  · unfold newHeader at hh ⊢
    split at hh
    · cases hh
    rename_i h0
    rw [if_neg h0]
    split at hh
    · simp only at hh ⊢
      split at hh
      · cases hh
      split at hh
      · cases hh
      split at hh
      · cases hh
      rename_i h1 h2 h3
      simp only [Res.ok.injEq] at hh
      subst hh
      rw [if_neg h1, if_neg h2, if_neg h3]
      rfl
    · cases hh
  · have hs : h.nextRecipientSessionPubSeen = some k := by
      unfold newHeader at hh
      split at hh
      · cases hh
      split at hh
      · simp only at hh
        split at hh
        · cases hh
        split at hh
        · cases hh
        split at hh
        · cases hh
        simp only [Res.ok.injEq] at hh
        subst hh
        rfl
      · cases hh
    have hl' : (jHeader { h with nextRecipientSessionPubSeen := some (withBreak k) }).length = 7154 := by
      have e : (jopt jKE (some (withBreak k))).length = (jopt jKE (some k)).length + 2 := jKE_withBreak k
      rw [show (7154 : Nat) = 7152 + 2 from rfl, ← hl]
      unfold jHeader
      rw [hs]
      simp only [List.length_append, e]
      simp +arith only []
    unfold newHeaderPacket
    simp only [hbox, hl']
    rfl

end Verif.HJ

/-
C61 with the concrete encodings: base64, the JSON form of headers and UID messages, and users
made by package uid. This joins the model of msg (Msg/*.lean), where the encodings are
parameters, with the models of package uid (Uid/*.lean) and of the header (Msg/HeaderJson.lean).

Decoding is given for the form the program writes; json.Unmarshal accepts more.
-/
import Verif.Msg.EndToEnd
import Verif.Msg.HeaderJson

namespace Verif.Msg.Concrete
open Verif.Json hiding lit
open Verif.Uid (lit defaultSuite Owned Message)
open Verif.Uid.Js
open Verif.HJ (jHeader padString IsDH Made Inputs)

/-! ### Key entries -/

/-- FUNCTION of a key entry as a string; `other` stands for all others. -/
def funcName : Func → Str
  | .ecdhe => lit "ECDHE25519"
  | .ed25519 => lit "ED25519"
  | .ed25510 => lit "ED25510"
  | .other => []

/-- The exported fields of a key entry (uid/keyentry.go:29-33). -/
def toKE (k : KeyEntry) : Uid.KeyEntry :=
  ⟨if k.suiteOk then defaultSuite else [], funcName k.func, k.hash, k.pubkey⟩

/-- A decoded key entry. -/
def fromKE (k : Uid.KeyEntry) : KeyEntry :=
  { suiteOk := decide (k.ciphersuite = defaultSuite)
    func := if k.function = lit "ECDHE25519" then .ecdhe else if k.function = lit "ED25519" then .ed25519
      else if k.function = lit "ED25510" then .ed25510 else .other
    hash := k.hash, pubkey := k.pubkey, priv := none }

theorem suite_ne : ¬([] : Str) = defaultSuite := by decide +kernel

theorem fromKE_toKE (k : KeyEntry) (h : k.priv = none) : fromKE (toKE k) = k := by
  obtain ⟨s, f, hs, pk, pr⟩ := k
  simp only at h
  subst h
  have hf : (if funcName f = lit "ECDHE25519" then Func.ecdhe else if funcName f = lit "ED25519" then .ed25519
      else if funcName f = lit "ED25510" then .ed25510 else .other) = f := by
    cases f <;> decide +kernel
  have e : (decide ((if s = true then defaultSuite else []) = defaultSuite)) = s := by
    cases s
    · simp only [Bool.false_eq_true, if_false, decide_eq_false_iff_not]; exact suite_ne
    · simp
  unfold fromKE toKE
  simp only
  rw [hf, e]

/-! ### Headers -/

/-- Decode the member that follows the text `s`. -/
def fld {α β : Type} (s : String) (p : Bytes → Option (α × Bytes)) (b : Bytes) (k : α → Bytes → Option β) : Option β :=
  (strip (lit s) b).bind fun b => (p b).bind fun a => k a.1 a.2

theorem fld_ok {α β : Type} {s : String} {p : Bytes → Option (α × Bytes)} {e r : Bytes} {x : α}
    {k : α → Bytes → Option β} (h : p (e ++ r) = some (x, r)) : fld s p (lit s ++ (e ++ r)) k = k x r := by
  unfold fld
  rw [strip_append, Option.bind_some, h, Option.bind_some]

/-- Decode a header as `jHeader` writes it. -/
def pHeader (b : Bytes) : Option (HJ.Header × Bytes) :=
  fld "{\"Ciphersuite\":" pstr b fun a0 b =>
  fld ",\"RecipientPubHash\":" pstr b fun a1 b =>
  fld ",\"RecipientTempHash\":" pstr b fun a2 b =>
  fld ",\"SenderIdentity\":" pstr b fun a3 b =>
  fld ",\"SenderSessionPub\":" pKE b fun a4 b =>
  fld ",\"SenderIdentityPubHash\":" pstr b fun a5 b =>
  fld ",\"SenderIdentityPub\":" pKE b fun a6 b =>
  fld ",\"NextSenderSessionPub\":" (popt pKE) b fun a7 b =>
  fld ",\"NextRecipientSessionPubSeen\":" (popt pKE) b fun a8 b =>
  fld ",\"NymAddress\":" pstr b fun a9 b =>
  fld ",\"MaxDelay\":" pu64 b fun a10 b =>
  fld ",\"SenderSessionCount\":" pu64 b fun a11 b =>
  fld ",\"SenderMessageCount\":" pu64 b fun a12 b =>
  fld ",\"SenderUID\":" pstr b fun a13 b =>
  fld ",\"SenderLastKeychainHash\":" pstr b fun a14 b =>
  fld ",\"Status\":" pnat b fun a15 b =>
  fld ",\"Padding\":" pstr b fun a16 b =>
  (strip (lit "}") b).map fun r => (⟨a0, a1, a2, a3, a4, a5, a6, a7, a8, a9, a10, a11, a12, a13, a14, a15, a16⟩, r)

theorem pnat_lit (n : Nat) (s : String) (r : Bytes) (hs : ((lit s).head?.any fun c => !isDigit c) = true) :
    pnat (jnat n ++ (lit s ++ r)) = some (n, lit s ++ r) := by
  apply pnat_jnat
  intro c hc
  cases hl : lit s with
  | nil => rw [hl] at hs; simp at hs
  | cons d l =>
    rw [hl] at hs hc
    simp only [List.cons_append, List.head?_cons, Option.some.injEq] at hc
    subst hc
    simpa using hs

theorem pHeader_jHeader (x : HJ.Header) (r : Bytes) : pHeader (jHeader x ++ r) = some (x, r) := by
  unfold pHeader jHeader
  simp only [List.append_assoc]
  rw [fld_ok (pstr_jstr _ _),
    fld_ok (pstr_jstr _ _),
    fld_ok (pstr_jstr _ _),
    fld_ok (pstr_jstr _ _),
    fld_ok (pKE_jKE _ _),
    fld_ok (pstr_jstr _ _),
    fld_ok (pKE_jKE _ _),
    fld_ok (poptKE _ _),
    fld_ok (poptKE _ _),
    fld_ok (pstr_jstr _ _),
    fld_ok (pu64_ju64 _ _ _ (by decide +kernel)),
    fld_ok (pu64_ju64 _ _ _ (by decide +kernel)),
    fld_ok (pu64_ju64 _ _ _ (by decide +kernel)),
    fld_ok (pstr_jstr _ _),
    fld_ok (pstr_jstr _ _),
    fld_ok (pnat_lit _ _ _ (by decide +kernel)),
    fld_ok (pstr_jstr _ _),
    strip_append]
  rfl

/-- The header struct (msg/header.go:42-60) of a header of the model. -/
def toHJ (h : Header) : HJ.Header :=
  { ciphersuite := defaultSuite, recipientPubHash := h.recipientPubHash, recipientTempHash := h.recipientTempHash
    senderIdentity := h.senderIdentity, senderSessionPub := toKE h.senderSessionPub
    senderIdentityPubHash := h.senderIdentityPubHash, senderIdentityPub := toKE h.senderIdentityPub
    nextSenderSessionPub := h.nextSenderSessionPub.map toKE
    nextRecipientSessionPubSeen := h.nextRecipientSessionPubSeen.map toKE
    nymAddress := h.nymAddress, maxDelay := 0, senderSessionCount := h.senderSessionCount
    senderMessageCount := h.senderMessageCount, senderUID := h.senderUID
    senderLastKeychainHash := h.senderLastKeychainHash, status := h.status.toNat, padding := h.padding }

/-- A decoded header; Status is a uint8 (msg/header.go:29). -/
def fromHJ (h : HJ.Header) : Option Header :=
  if h.status < 256 then
    some
      { recipientPubHash := h.recipientPubHash, recipientTempHash := h.recipientTempHash
        senderIdentity := h.senderIdentity, senderSessionPub := fromKE h.senderSessionPub
        senderIdentityPubHash := h.senderIdentityPubHash, senderIdentityPub := fromKE h.senderIdentityPub
        nextSenderSessionPub := h.nextSenderSessionPub.map fromKE
        nextRecipientSessionPubSeen := h.nextRecipientSessionPubSeen.map fromKE
        nymAddress := h.nymAddress, senderSessionCount := h.senderSessionCount
        senderMessageCount := h.senderMessageCount, senderUID := h.senderUID
        senderLastKeychainHash := h.senderLastKeychainHash, status := UInt8.ofNat h.status, padding := h.padding }
  else none

theorem map_fromKE (x : Option KeyEntry) (h : ∀ k, x = some k → k.priv = none) : (x.map toKE).map fromKE = x := by
  cases x with
  | none => rfl
  | some k => simp only [Option.map_some, fromKE_toKE k (h k rfl)]

theorem fromHJ_toHJ (h : Header) (hc : h.Clean) : fromHJ (toHJ h) = some h := by
  obtain ⟨h1, h2, h3, h4⟩ := hc
  have : h.status.toNat < 256 := h.status.toNat_lt
  simp only [fromHJ, toHJ, if_pos this, fromKE_toKE _ h1, fromKE_toKE _ h2, map_fromKE _ h3, map_fromKE _ h4,
    UInt8.ofNat_toNat]

/-! ### UID messages -/

/-- A UID message as package msg uses it: PUBKEYS[0] (uid/uid.go:325-337), SIGKEY and the JSON form. -/
def ofMessage (m : Message) : UID :=
  { identity := m.content.identity
    pubKey := fromKE (m.content.pubkeys.head?.getD ⟨[], [], [], []⟩)
    sigKey := fromKE m.content.sigkey
    json := jMsg m }

/-- A user's own UID message, with the private encryption key. -/
def ofOwned (o : Owned) : UID :=
  { ofMessage o.msg with pubKey := { (ofMessage o.msg).pubKey with priv := o.encPriv } }

/-- The primitives `P` with the encodings the program uses. -/
def real (P : Prims) : Prims :=
  { P with
    b64 := Base64.encode, unb64 := Base64.decode
    marshal := fun h => jHeader (toHJ h)
    parse := fun b => (whole pHeader b).bind fromHJ
    parseUID := fun s => (whole pMsg s).map ofMessage }

/-- The JSON form of every header that carries no private keys decodes to the header. -/
theorem parse_marshal (P : Prims) (h : Header) (hc : h.Clean) : (real P).parse ((real P).marshal h) = some h := by
  simp only [real]
  rw [whole_ok (f := jHeader) (p := pHeader) pHeader_jHeader (toHJ h), Option.bind_some, fromHJ_toHJ h hc]

/-! ### Users made by package uid -/

/-- The primitives of the two models are the same functions. -/
structure Same (U : Uid.Prims) (P : Prims) : Prop where
  sha512 : U.sha512 = P.sha512
  dhPub : U.dhPub = P.dhPub
  edPub : U.edPub = P.edPub

/-- The entry `InitDHKey` makes (uid/keyentry.go:98-111). -/
def dhEntry (U : Uid.Prims) (x : Bytes) : Uid.KeyEntry :=
  ⟨defaultSuite, lit "ECDHE25519", Base64.encode (U.sha512 (U.dhPub x)), Base64.encode (U.dhPub x)⟩

/-- The entry `initSigKey` makes (uid/keyentry.go:115-128). -/
def sigEntry (U : Uid.Prims) (x : Bytes) : Uid.KeyEntry :=
  ⟨defaultSuite, lit "ED25519", Base64.encode (U.sha512 (U.edPub x)), Base64.encode (U.edPub x)⟩

theorem initDHKey_spec {U : Uid.Prims} {r : Option Bytes} {y : Uid.KeyEntry × Bytes}
    (h : Uid.initDHKey U r = .ok y) : y = (dhEntry U y.2, y.2) := by
  cases r with
  | none => cases h
  | some r =>
    simp only [Uid.initDHKey, Res.ok.injEq] at h
    subst h
    rfl

theorem initSigKey_spec {U : Uid.Prims} {r : Option Bytes} {y : Uid.KeyEntry × Bytes}
    (h : Uid.initSigKey U r = .ok y) : y = (sigEntry U y.2, y.2) := by
  cases r with
  | none => cases h
  | some r =>
    simp only [Uid.initSigKey, Res.ok.injEq] at h
    subst h
    rfl

/-- The private keys of a user belong to the public ones in the UID message. -/
theorem made_keys {U : Uid.Prims} {b : Bool} {o : Owned} (h : Made U b o) :
    (∃ x, o.encPriv = some x ∧ o.msg.content.pubkeys = [dhEntry U x]) ∧
    ∃ y, o.sigPriv = some y ∧ o.msg.content.sigkey = sigEntry U y := by
  induction h with
  | @create userID mix nym lastEntry pfs later r1 r2 r3 o plain h =>
    unfold Uid.create at h
    split at h
    · cases h
    · obtain ⟨sk, hsk, h⟩ := Res.bind_eq_ok.mp h
      obtain ⟨dh, hdh, h⟩ := Res.bind_eq_ok.mp h
      obtain ⟨es, hes, h⟩ := Res.bind_eq_ok.mp h
      obtain ⟨u, -, h⟩ := Res.bind_eq_ok.mp h
      simp only [Res.ok.injEq] at h
      subst h
      have e1 := initDHKey_spec hdh
      have e2 := initSigKey_spec hsk
      refine ⟨⟨dh.2, rfl, ?_⟩, sk.2, rfl, ?_⟩
      · simp only [Uid.newContent]; rw [e1]
      · simp only [Uid.newContent]; rw [e2]
  | @update o o' r m h ih =>
    obtain ⟨hk, -⟩ := ih
    unfold Uid.update at h
    obtain ⟨⟨sk, sp⟩, hsk, h⟩ := Res.bind_eq_ok.mp h
    have e := initSigKey_spec hsk
    simp only [Prod.mk.injEq, and_true] at e
    simp only at h
    split at h
    · split at h
      · cases h
      · split at h
        · cases h
        · simp only [Res.ok.injEq] at h
          subst h
          exact ⟨hk, sp, rfl, e⟩
    · cases h

theorem toKE_initDHKey {U : Uid.Prims} {P : Prims} (hS : Same U P) (x : Bytes) :
    toKE (initDHKey (real P) x) = dhEntry U x := by
  simp only [toKE, initDHKey, real, dhEntry, hS.sha512, hS.dhPub, funcName, if_true]

theorem fromKE_dhEntry {U : Uid.Prims} {P : Prims} (hS : Same U P) (x : Bytes) :
    fromKE (dhEntry U x) = (initDHKey (real P) x).public := by
  simp [fromKE, initDHKey, real, dhEntry, hS.sha512, hS.dhPub, KeyEntry.public]

theorem ed_ne : ¬lit "ED25519" = lit "ECDHE25519" := by decide +kernel

theorem fromKE_sigEntry {U : Uid.Prims} {P : Prims} (hS : Same U P) (hU : U.Good) (x : Bytes) :
    (fromKE (sigEntry U x)).pub32 (real P) = some ((real P).edPub x) := by
  have h := hU.edPub_len x
  rw [hS.edPub] at h
  simp [fromKE, sigEntry, KeyEntry.pub32, real, Base64.decode_encode, hS.edPub, h, ed_ne]

theorem isDH_entry (U : Uid.Prims) (x : Bytes) : IsDH U (dhEntry U x) := ⟨x, x, rfl⟩

/-- The link between two users made by package uid. -/
def link (oa ob : Owned) (a b k : Bytes) (nA nB : UInt64) : Link :=
  { alice := ofOwned oa, bob := ofOwned ob, aPriv := a, bPriv := b, kPriv := k, nA := nA, nB := nB }

theorem ofOwned_pubKey {U : Uid.Prims} {P : Prims} (hS : Same U P) {o : Owned} {x : Bytes} (he : o.encPriv = some x)
    (hk : o.msg.content.pubkeys = [dhEntry U x]) : (ofOwned o).pubKey = initDHKey (real P) x := by
  simp only [ofOwned, ofMessage, hk, List.head?_cons, Option.getD_some, fromKE_dhEntry hS, he]
  rfl

theorem jHeader_padding (h : HJ.Header) (p : Str) (h1 : Plain h.padding) (h2 : Plain p) (hl : h.padding.length = p.length) :
    (jHeader { h with padding := p }).length = (jHeader h).length := by
  simp only [jHeader, List.length_append, jstr_plain_length h1, jstr_plain_length h2, hl]

/-- What package uid guarantees of a user who can send: an identity and a last hash chain entry
of the right sizes, no published addresses. -/
structure CanSend (o : Owned) : Prop where
  identity : o.msg.content.identity.length ≤ 254
  mix : o.msg.content.mixaddress = []
  nym : o.msg.content.nymaddress = []
  last : o.msg.content.lastentry.length = 204

/-- A message a user can send: content, nym address and hash chain entry within the limits,
good random sources, and the signature key, if any, is the user's. -/
structure Sendable (o : Owned) (r : Round) : Prop where
  content : r.content.length ≤ 41691
  nym : r.nymAddress.length ≤ 1568
  nymPlain : Plain r.nymAddress
  last : r.lastHash.length = 204
  lastPlain : Plain r.lastHash
  rnd : r.rnd.Good
  hexPad : ∀ n, Plain (r.rnd.hexPad n)
  sig : r.sigKey = none ∨ r.sigKey = o.sigPriv

section
variable {U : Uid.Prims} {P : Prims} (hU : U.Good) (hS : Same U P) (hsig : ∀ k m, (U.sign k m).length = 64)
  {oa ob : Owned} (ha : Made U false oa) (hb : Made U false ob) (hc : CanSend oa) {a b k : Bytes} {nA nB : UInt64}
  (hea : oa.encPriv = some a) (heb : ob.encPriv = some b)
include hU hS ha hb hc hea heb

omit hS hb hea heb in
include hsig in
theorem json_len : (jMsg oa.msg).length ≤ 2004 := by
  have h1 := HJ.jMsg_length_le hU hsig ha hc.mix hc.nym (by have := hc.last; omega)
  have h2 := HJ.splitId_length oa.msg.content.identity
  have h3 := hc.identity
  simp only [Bool.false_eq_true, if_false] at h1
  omega

omit hU hS ha hb hc hea heb in
theorem toKE_public (k : KeyEntry) : toKE k.public = toKE k := rfl

omit hU hS ha hb hc hea heb in
theorem hash_entry (hS : Same U P) (x : Bytes) : (initDHKey (real P) x).hash = (dhEntry U x).hash := by
  simp only [initDHKey, real, dhEntry, hS.sha512, hS.dhPub]

include hsig in
theorem header_len {r : Round} (hr : Sendable oa r) {s : Bytes} {n : Nat} {ss : State}
    (hss : AState (real P) (link oa ob a b k nA nB) s n ss) :
    ((real P).marshal (mkHeader ((link oa ob a b k nA nB).encArgs r) r.rnd ss)).length = 7152 := by
  obtain ⟨x, hx, hpa⟩ := (made_keys ha).1
  obtain ⟨y, hy, hpb⟩ := (made_keys hb).1
  rw [hea] at hx; cases hx
  rw [heb] at hy; cases hy
  have hj := json_len hU hsig ha hc
  have ka := ofOwned_pubKey (P := P) hS hea hpa
  have kb := ofOwned_pubKey (P := P) hS heb hpb
  obtain ⟨nx, hnx⟩ : ∃ nx : Option Bytes, ss.nextSenderSessionPub = nx.map (initDHKey (real P)) := by
    rcases hss.next with h | ⟨x, h⟩
    · exact ⟨none, h⟩
    · exact ⟨some x, h⟩
  have hi : Inputs U ob.msg (dhEntry U k).hash (dhEntry U s) (nx.map (dhEntry U)) none r.nymAddress r.lastHash
      (fun n => List.replicate n 0) 0 :=
    { recipient := ⟨_, _, hpb, isDH_entry U b⟩
      temp := ⟨_, isDH_entry U k, rfl⟩
      ssp := isDH_entry U s
      nssp := by
        intro e he
        cases nx with
        | none => cases he
        | some z => cases he; exact isDH_entry U z
      nrsp := by intro e he; cases he
      nym := hr.nymPlain
      last := hr.lastPlain
      rand := fun n => List.length_replicate
      status := by omega }
  let h1 := mkHeader ((link oa ob a b k nA nB).encArgs r) r.rnd ss
  have htoHJ : toHJ h1 =
      { ciphersuite := defaultSuite, recipientPubHash := (dhEntry U b).hash, recipientTempHash := (dhEntry U k).hash
        senderIdentity := oa.msg.content.identity, senderSessionPub := dhEntry U s
        senderIdentityPubHash := (dhEntry U a).hash, senderIdentityPub := dhEntry U a
        nextSenderSessionPub := nx.map (dhEntry U), nextRecipientSessionPubSeen := none
        nymAddress := r.nymAddress, maxDelay := 0, senderSessionCount := ss.senderSessionCount
        senderMessageCount := ss.senderMessageCount, senderUID := jMsg oa.msg
        senderLastKeychainHash := r.lastHash, status := 0, padding := h1.padding } := by
    have e1 : (keyHash (real P) k) = (dhEntry U k).hash := hash_entry hS k
    have e2 : nx.map (fun x => toKE (initDHKey (real P) x)) = nx.map (dhEntry U) := by
      simp only [toKE_initDHKey hS]
    have e3 : (ofOwned ob).pubKey.public.hash = (dhEntry U b).hash := by rw [kb]; exact hash_entry hS b
    have e4 : (ofOwned oa).pubKey.hash = (dhEntry U a).hash := by rw [ka]; exact hash_entry hS a
    have e5 : toKE (ofOwned oa).pubKey = dhEntry U a := by rw [ka]; exact toKE_initDHKey hS a
    have e6 : toKE ss.senderSessionPub = dhEntry U s := by rw [hss.own]; exact toKE_initDHKey hS s
    have e7 : ss.recipientTemp.hash = (dhEntry U k).hash := by rw [hss.hash]; exact e1
    simp only [h1, mkHeader, toHJ, Link.encArgs, link, hnx, hss.seen, Option.map_none, Option.map_map, toKE_public,
      e3, e4, e5, e6, e7, ← e2]
    rfl
  have hpad : h1.padding = r.rnd.hexPad (padLen { h1 with padding := [] }) := rfl
  have e : HJ.newHeader U oa.msg ob.msg (dhEntry U k).hash (dhEntry U s) (nx.map (dhEntry U)) none r.nymAddress
      ss.senderSessionCount ss.senderMessageCount r.lastHash (fun n => List.replicate n 0) 0 =
      .ok { toHJ h1 with padding := padString U.aes (fun n => List.replicate n 0) (padLen { h1 with padding := [] }) } := by
    unfold HJ.newHeader
    rw [if_neg (by have := hr.last; omega), hpa, hpb]
    simp only
    rw [if_neg (by have := hc.identity; omega), if_neg (by have := hr.nym; omega), if_neg (by omega), htoHJ]
    simp only [padLen, h1, mkHeader, Link.encArgs, link, hnx, hss.seen, Option.map_none, Option.isNone_map,
      Option.isNone_none, ofOwned, ofMessage, wiggleRoom, identityMaxLen, keyEntryLen, nilLen, maxNymAddress, maxUIDMessage]
  have hl := HJ.jHeader_length hU ha hi e
  simp only [Bool.false_eq_true, if_false] at hl
  rw [← hl]
  have := jHeader_padding
    { toHJ h1 with padding := padString U.aes (fun n => List.replicate n 0) (padLen { h1 with padding := [] }) }
    h1.padding (HJ.padString_plain _ _ _) (by rw [hpad]; exact hr.hexPad _)
    (by rw [hpad, hr.rnd.hexPad_len, HJ.padString_length hU.aes _ (fun n => List.length_replicate)])
  rw [← this]
  rfl
end

/-- C61: two users made by Create (and Update), who have never communicated, exchange messages
with the encodings the program uses: base64, and JSON for UID messages and headers.  Whatever
the users' keys and names, the contents, addresses, signature choices and random values of the
messages, every message is accepted and delivers exactly its content, the sender's identity and
the signature.  (Numbers of messages up to where the key window gets stuck, C14.) -/
theorem C61_own_users_talk {U : Uid.Prims} {P : Prims} (hU : U.Good) (hP : (real P).Good) (hS : Same U P)
    (hsig : ∀ k m, (U.sign k m).length = 64) {oa ob : Owned} (ha : Made U false oa) (hb : Made U false ob)
    (hc : CanSend oa) {a b k : Bytes} (hea : oa.encPriv = some a) (heb : ob.encPriv = some b) {nA nB : UInt64}
    (hnA : nA.toNat < 2 ^ 32) (hnB : nB.toNat < 2 ^ 32) (rs : List Round) (hrs : ∀ r ∈ rs, Sendable oa r)
    (hd : ∀ r ∈ rs.head?, AllDifferent [P.dhPub r.rnd.headerPriv, P.dhPub a, P.dhPub r.rnd.sessPriv, P.dhPub b,
      P.dhPub k])
    (hlen : rs.length ≤ stuckAt (effKeys nB).toNat) (A B : MemStore)
    (hstart : (link oa ob a b k nA nB).Start (real P) A B) :
    conversation (real P) (link oa ob a b k nA nB) rs A B =
      .ok (rs.map fun r => (r.content, oa.msg.content.identity, sigOf (real P) r.sigKey r.content)) := by
  obtain ⟨⟨x, hx, hpa⟩, z, hz, hsa⟩ := made_keys ha
  obtain ⟨y, hy, hpb⟩ := (made_keys hb).1
  rw [hea] at hx; cases hx
  rw [heb] at hy; cases hy
  refine C61_conversation_succeeds hP (link oa ob a b k nA nB) (ofMessage oa.msg)
    ⟨ofOwned_pubKey hS hea hpa, ofOwned_pubKey hS heb hpb, ?_, hnA, hnB⟩ (fun h hc _ => parse_marshal P h hc) rs
    (fun r hr => ⟨(hrs r hr).rnd, ?_⟩) (fun r hr => ?_) hd hlen A B hstart
  · simp only [real, link, ofOwned, ofMessage]
    rw [whole_ok (f := jMsg) (p := pMsg) pMsg_jMsg]
    rfl
  · intro kk hk
    rcases (hrs r hr).sig with h | h
    · rw [h] at hk; cases hk
    · rw [hk, hz] at h
      cases h
      have := fromKE_sigEntry hS hU z
      simp only [ofMessage, hsa]
      exact this
  · have h := hrs r hr
    exact ⟨h.last, hc.identity, h.nym, json_len hU hsig ha hc, h.content,
      fun s n ss hss => header_len hU hS hsig ha hb hc hea heb h hss⟩

end Verif.Msg.Concrete

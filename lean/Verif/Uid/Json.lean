/-
uid/uid.go, uid/keyentry.go, uid/keyinit.go: the JSON form of UID messages,
KeyInit messages and key server entries, with a proof that decoding undoes
encoding, and a set of primitives for which the assumptions made of the
environment hold (so the theorems about UID messages and the key server client
are not vacuous).

marshalSorted (uid.go:406-417) turns structs into maps, so members come in
alphabetical order. The model does not distinguish a nil slice (written as null)
from an empty one (written as []); the project fills all slices it writes.
-/
import Verif.Json
import Verif.Uid.Model

namespace Verif.Uid.Js

open Verif.Json (strip strip_append jstr pstr pstr_jstr jnat pnat pnat_jnat jbool pbool pbool_jbool jarr parr
  parr_jarr jopt popt popt_jopt strip_jstr isDigit)

/-- A uint64. -/
def ju64 (u : UInt64) : Bytes := jnat u.toNat

/-- Read a uint64; larger numbers are an error of json.Unmarshal. -/
def pu64 (b : Bytes) : Option (UInt64 × Bytes) :=
  (pnat b).bind fun x => if x.1 < 18446744073709551616 then some (UInt64.ofNat x.1, x.2) else none

theorem pu64_ju64 (u : UInt64) (s : String) (r : Bytes)
    (hs : ((lit s).head?.any fun c => !isDigit c) = true) :
    pu64 (ju64 u ++ (lit s ++ r)) = some (u, lit s ++ r) := by
  have h : pnat (jnat u.toNat ++ (lit s ++ r)) = some (u.toNat, lit s ++ r) := by
    apply pnat_jnat
    intro c hc
    cases hl : lit s with
    | nil => rw [hl] at hs; simp at hs
    | cons d l =>
      rw [hl] at hs hc
      simp only [List.cons_append, List.head?_cons, Option.some.injEq] at hc
      subst hc
      simpa using hs
  unfold pu64 ju64
  rw [h, Option.bind_some, if_pos u.toNat_lt, UInt64.ofNat_toNat]

theorem pstrs_jstrs (l : List Bytes) (r : Bytes) : parr pstr (jarr jstr l ++ r) = some (l, r) :=
  parr_jarr _ _ _ _ (fun s _ r => pstr_jstr s r) (fun s _ r => strip_jstr s r)

/-- `KeyEntry` as marshalSorted writes it (keyentry.go:29-33, 141-143). -/
def jKE (x : KeyEntry) : Bytes :=
  lit "{\"CIPHERSUITE\":" ++ (jstr x.ciphersuite ++ (
  lit ",\"FUNCTION\":" ++ (jstr x.function ++ (
  lit ",\"HASH\":" ++ (jstr x.hash ++ (
  lit ",\"PUBKEY\":" ++ (jstr x.pubkey ++ (lit "}"))))))))

/-- Read a `KeyEntry`. -/
def pKE (b : Bytes) : Option (KeyEntry × Bytes) :=
  (strip (lit "{\"CIPHERSUITE\":") b).bind fun b0 =>
  (pstr b0).bind fun a0 =>
  (strip (lit ",\"FUNCTION\":") a0.2).bind fun b1 =>
  (pstr b1).bind fun a1 =>
  (strip (lit ",\"HASH\":") a1.2).bind fun b2 =>
  (pstr b2).bind fun a2 =>
  (strip (lit ",\"PUBKEY\":") a2.2).bind fun b3 =>
  (pstr b3).bind fun a3 =>
  (strip (lit "}") a3.2).map fun r =>
  (⟨a0.1, a1.1, a2.1, a3.1⟩, r)

theorem pKE_jKE (x : KeyEntry) (r : Bytes) : pKE (jKE x ++ r) = some (x, r) := by
  simp (decide := true) only [jKE, pKE, List.append_assoc, strip_append, Option.bind_some, Option.map_some,
    pstr_jstr]


theorem strip_jKE (k : KeyEntry) (r : Bytes) : strip (lit "]") (jKE k ++ r) = none := by
  unfold jKE; rfl

theorem strip_null_jKE (k : KeyEntry) (r : Bytes) : strip (lit "null") (jKE k ++ r) = none := by
  unfold jKE; rfl

theorem pKEs (ks : List KeyEntry) (r : Bytes) : parr pKE (jarr jKE ks ++ r) = some (ks, r) :=
  parr_jarr _ _ _ _ (fun k _ r => pKE_jKE k r) (fun k _ r => strip_jKE k r)

theorem poptKE (k : Option KeyEntry) (r : Bytes) : popt pKE (jopt jKE k ++ r) = some (k, r) :=
  popt_jopt _ _ _ _ (fun k _ r => pKE_jKE k r) (fun k _ r => strip_null_jKE k r)

/-- `Prefs` as marshalSorted writes it (uid.go:67-70). -/
def jPrefs (x : Prefs) : Bytes :=
  lit "{\"CIPHERSUITES\":" ++ (jarr jstr x.ciphersuites ++ (
  lit ",\"FORWARDSEC\":" ++ (jstr x.forwardsec ++ (lit "}"))))

/-- Read a `Prefs`. -/
def pPrefs (b : Bytes) : Option (Prefs × Bytes) :=
  (strip (lit "{\"CIPHERSUITES\":") b).bind fun b0 =>
  (parr pstr b0).bind fun a0 =>
  (strip (lit ",\"FORWARDSEC\":") a0.2).bind fun b1 =>
  (pstr b1).bind fun a1 =>
  (strip (lit "}") a1.2).map fun r =>
  (⟨a1.1, a0.1⟩, r)

theorem pPrefs_jPrefs (x : Prefs) (r : Bytes) : pPrefs (jPrefs x ++ r) = some (x, r) := by
  simp (decide := true) only [jPrefs, pPrefs, List.append_assoc, strip_append, Option.bind_some, Option.map_some,
    pstr_jstr, pstrs_jstrs]


/-- `ChainLink` as marshalSorted writes it (uid.go:72-78). -/
def jLink (x : ChainLink) : Bytes :=
  lit "{\"AUTHORITATIVE\":" ++ (jbool x.authoritative ++ (
  lit ",\"DOMAINS\":" ++ (jarr jstr x.domains ++ (
  lit ",\"IDENTITY\":" ++ (jstr x.identity ++ (
  lit ",\"LAST\":" ++ (jstr x.last ++ (
  lit ",\"URI\":" ++ (jarr jstr x.uri ++ (lit "}"))))))))))

/-- Read a `ChainLink`. -/
def pLink (b : Bytes) : Option (ChainLink × Bytes) :=
  (strip (lit "{\"AUTHORITATIVE\":") b).bind fun b0 =>
  (pbool b0).bind fun a0 =>
  (strip (lit ",\"DOMAINS\":") a0.2).bind fun b1 =>
  (parr pstr b1).bind fun a1 =>
  (strip (lit ",\"IDENTITY\":") a1.2).bind fun b2 =>
  (pstr b2).bind fun a2 =>
  (strip (lit ",\"LAST\":") a2.2).bind fun b3 =>
  (pstr b3).bind fun a3 =>
  (strip (lit ",\"URI\":") a3.2).bind fun b4 =>
  (parr pstr b4).bind fun a4 =>
  (strip (lit "}") a4.2).map fun r =>
  (⟨a4.1, a3.1, a0.1, a1.1, a2.1⟩, r)

theorem pLink_jLink (x : ChainLink) (r : Bytes) : pLink (jLink x ++ r) = some (x, r) := by
  simp (decide := true) only [jLink, pLink, List.append_assoc, strip_append, Option.bind_some, Option.map_some,
    pbool_jbool, pstr_jstr, pstrs_jstrs]


theorem strip_null_jLink (k : ChainLink) (r : Bytes) : strip (lit "null") (jLink k ++ r) = none := by
  unfold jLink; rfl

theorem poptLink (k : Option ChainLink) (r : Bytes) : popt pLink (jopt jLink k ++ r) = some (k, r) :=
  popt_jopt _ _ _ _ (fun k _ r => pLink_jLink k r) (fun k _ r => strip_null_jLink k r)

/-- `Content` as marshalSorted writes it (uid.go:80-95, 420-422). -/
def jContent (x : Content) : Bytes :=
  lit "{\"CHAINLINK\":" ++ (jopt jLink x.chainlink ++ (
  lit ",\"IDENTITY\":" ++ (jstr x.identity ++ (
  lit ",\"LASTENTRY\":" ++ (jstr x.lastentry ++ (
  lit ",\"MIXADDRESS\":" ++ (jstr x.mixaddress ++ (
  lit ",\"MSGCOUNT\":" ++ (ju64 x.msgcount ++ (
  lit ",\"NOTAFTER\":" ++ (ju64 x.notafter ++ (
  lit ",\"NOTBEFORE\":" ++ (ju64 x.notbefore ++ (
  lit ",\"NYMADDRESS\":" ++ (jstr x.nymaddress ++ (
  lit ",\"PREFERENCES\":" ++ (jPrefs x.prefs ++ (
  lit ",\"PUBKEYS\":" ++ (jarr jKE x.pubkeys ++ (
  lit ",\"REPOURIS\":" ++ (jarr jstr x.repouris ++ (
  lit ",\"SIGESCROW\":" ++ (jopt jKE x.sigescrow ++ (
  lit ",\"SIGKEY\":" ++ (jKE x.sigkey ++ (
  lit ",\"VERSION\":" ++ (jstr x.version ++ (lit "}"))))))))))))))))))))))))))))

/-- Read a `Content`. -/
def pContent (b : Bytes) : Option (Content × Bytes) :=
  (strip (lit "{\"CHAINLINK\":") b).bind fun b0 =>
  (popt pLink b0).bind fun a0 =>
  (strip (lit ",\"IDENTITY\":") a0.2).bind fun b1 =>
  (pstr b1).bind fun a1 =>
  (strip (lit ",\"LASTENTRY\":") a1.2).bind fun b2 =>
  (pstr b2).bind fun a2 =>
  (strip (lit ",\"MIXADDRESS\":") a2.2).bind fun b3 =>
  (pstr b3).bind fun a3 =>
  (strip (lit ",\"MSGCOUNT\":") a3.2).bind fun b4 =>
  (pu64 b4).bind fun a4 =>
  (strip (lit ",\"NOTAFTER\":") a4.2).bind fun b5 =>
  (pu64 b5).bind fun a5 =>
  (strip (lit ",\"NOTBEFORE\":") a5.2).bind fun b6 =>
  (pu64 b6).bind fun a6 =>
  (strip (lit ",\"NYMADDRESS\":") a6.2).bind fun b7 =>
  (pstr b7).bind fun a7 =>
  (strip (lit ",\"PREFERENCES\":") a7.2).bind fun b8 =>
  (pPrefs b8).bind fun a8 =>
  (strip (lit ",\"PUBKEYS\":") a8.2).bind fun b9 =>
  (parr pKE b9).bind fun a9 =>
  (strip (lit ",\"REPOURIS\":") a9.2).bind fun b10 =>
  (parr pstr b10).bind fun a10 =>
  (strip (lit ",\"SIGESCROW\":") a10.2).bind fun b11 =>
  (popt pKE b11).bind fun a11 =>
  (strip (lit ",\"SIGKEY\":") a11.2).bind fun b12 =>
  (pKE b12).bind fun a12 =>
  (strip (lit ",\"VERSION\":") a12.2).bind fun b13 =>
  (pstr b13).bind fun a13 =>
  (strip (lit "}") a13.2).map fun r =>
  (⟨a13.1, a4.1, a5.1, a6.1, a3.1, a7.1, a1.1, a12.1, a9.1, a11.1, a2.1, a10.1, a8.1, a0.1⟩, r)

theorem pContent_jContent (x : Content) (r : Bytes) : pContent (jContent x ++ r) = some (x, r) := by
  simp (decide := true) only [jContent, pContent, List.append_assoc, strip_append, Option.bind_some, Option.map_some,
    pKE_jKE, pKEs, pPrefs_jPrefs, poptKE, poptLink, pstr_jstr, pstrs_jstrs, pu64_ju64]


/-- `Message` as marshalSorted writes it (uid.go:99-111, 425-427). -/
def jMsg (x : Message) : Bytes :=
  lit "{\"ESCROWSIGNATURE\":" ++ (jstr x.escrowSig ++ (
  lit ",\"LINKAUTHORITY\":" ++ (jstr x.linkAuthority ++ (
  lit ",\"SELFSIGNATURE\":" ++ (jstr x.selfSig ++ (
  lit ",\"UIDContent\":" ++ (jContent x.content ++ (
  lit ",\"USERSIGNATURE\":" ++ (jstr x.userSig ++ (lit "}"))))))))))

/-- Read a `Message`. -/
def pMsg (b : Bytes) : Option (Message × Bytes) :=
  (strip (lit "{\"ESCROWSIGNATURE\":") b).bind fun b0 =>
  (pstr b0).bind fun a0 =>
  (strip (lit ",\"LINKAUTHORITY\":") a0.2).bind fun b1 =>
  (pstr b1).bind fun a1 =>
  (strip (lit ",\"SELFSIGNATURE\":") a1.2).bind fun b2 =>
  (pstr b2).bind fun a2 =>
  (strip (lit ",\"UIDContent\":") a2.2).bind fun b3 =>
  (pContent b3).bind fun a3 =>
  (strip (lit ",\"USERSIGNATURE\":") a3.2).bind fun b4 =>
  (pstr b4).bind fun a4 =>
  (strip (lit "}") a4.2).map fun r =>
  (⟨a3.1, a0.1, a4.1, a2.1, a1.1⟩, r)

theorem pMsg_jMsg (x : Message) (r : Bytes) : pMsg (jMsg x ++ r) = some (x, r) := by
  simp (decide := true) only [jMsg, pMsg, List.append_assoc, strip_append, Option.bind_some, Option.map_some,
    pContent_jContent, pstr_jstr]


/-- `Entry` as marshalSorted writes it (uid.go:114-118, 430-432). -/
def jEntry (x : Entry) : Bytes :=
  lit "{\"HASHCHAINENTRY\":" ++ (jstr x.hashchainEntry ++ (
  lit ",\"HASHCHAINPOS\":" ++ (ju64 x.hashchainPos ++ (
  lit ",\"UIDMESSAGEENCRYPTED\":" ++ (jstr x.uidMessageEncrypted ++ (lit "}"))))))

/-- Read a `Entry`. -/
def pEntry (b : Bytes) : Option (Entry × Bytes) :=
  (strip (lit "{\"HASHCHAINENTRY\":") b).bind fun b0 =>
  (pstr b0).bind fun a0 =>
  (strip (lit ",\"HASHCHAINPOS\":") a0.2).bind fun b1 =>
  (pu64 b1).bind fun a1 =>
  (strip (lit ",\"UIDMESSAGEENCRYPTED\":") a1.2).bind fun b2 =>
  (pstr b2).bind fun a2 =>
  (strip (lit "}") a2.2).map fun r =>
  (⟨a2.1, a0.1, a1.1⟩, r)

theorem pEntry_jEntry (x : Entry) (r : Bytes) : pEntry (jEntry x ++ r) = some (x, r) := by
  simp (decide := true) only [jEntry, pEntry, List.append_assoc, strip_append, Option.bind_some, Option.map_some,
    pstr_jstr, pu64_ju64]


/-- `Anchor` as marshalSorted writes it (keyinit.go:20-24, 58-60). -/
def jAnchor (x : Anchor) : Bytes :=
  lit "{\"MIXADDRESS\":" ++ (jstr x.mixaddress ++ (
  lit ",\"NYMADDRESS\":" ++ (jstr x.nymaddress ++ (
  lit ",\"PFKEYS\":" ++ (jarr jKE x.pfkeys ++ (lit "}"))))))

/-- Read a `Anchor`. -/
def pAnchor (b : Bytes) : Option (Anchor × Bytes) :=
  (strip (lit "{\"MIXADDRESS\":") b).bind fun b0 =>
  (pstr b0).bind fun a0 =>
  (strip (lit ",\"NYMADDRESS\":") a0.2).bind fun b1 =>
  (pstr b1).bind fun a1 =>
  (strip (lit ",\"PFKEYS\":") a1.2).bind fun b2 =>
  (parr pKE b2).bind fun a2 =>
  (strip (lit "}") a2.2).map fun r =>
  (⟨a0.1, a1.1, a2.1⟩, r)

theorem pAnchor_jAnchor (x : Anchor) (r : Bytes) : pAnchor (jAnchor x ++ r) = some (x, r) := by
  simp (decide := true) only [jAnchor, pAnchor, List.append_assoc, strip_append, Option.bind_some, Option.map_some,
    pKEs, pstr_jstr]


/-- `KIContents` as marshalSorted writes it (keyinit.go:26-36). -/
def jKIContents (x : KIContents) : Bytes :=
  lit "{\"FALLBACK\":" ++ (jbool x.fallback ++ (
  lit ",\"MSGCOUNT\":" ++ (ju64 x.msgcount ++ (
  lit ",\"NOTAFTER\":" ++ (ju64 x.notafter ++ (
  lit ",\"NOTBEFORE\":" ++ (ju64 x.notbefore ++ (
  lit ",\"REPOURI\":" ++ (jstr x.repouri ++ (
  lit ",\"SESSIONANCHOR\":" ++ (jstr x.sessionanchor ++ (
  lit ",\"SESSIONANCHORHASH\":" ++ (jstr x.sessionanchorhash ++ (
  lit ",\"SIGKEYHASH\":" ++ (jstr x.sigkeyhash ++ (
  lit ",\"VERSION\":" ++ (jstr x.version ++ (lit "}"))))))))))))))))))

/-- Read a `KIContents`. -/
def pKIContents (b : Bytes) : Option (KIContents × Bytes) :=
  (strip (lit "{\"FALLBACK\":") b).bind fun b0 =>
  (pbool b0).bind fun a0 =>
  (strip (lit ",\"MSGCOUNT\":") a0.2).bind fun b1 =>
  (pu64 b1).bind fun a1 =>
  (strip (lit ",\"NOTAFTER\":") a1.2).bind fun b2 =>
  (pu64 b2).bind fun a2 =>
  (strip (lit ",\"NOTBEFORE\":") a2.2).bind fun b3 =>
  (pu64 b3).bind fun a3 =>
  (strip (lit ",\"REPOURI\":") a3.2).bind fun b4 =>
  (pstr b4).bind fun a4 =>
  (strip (lit ",\"SESSIONANCHOR\":") a4.2).bind fun b5 =>
  (pstr b5).bind fun a5 =>
  (strip (lit ",\"SESSIONANCHORHASH\":") a5.2).bind fun b6 =>
  (pstr b6).bind fun a6 =>
  (strip (lit ",\"SIGKEYHASH\":") a6.2).bind fun b7 =>
  (pstr b7).bind fun a7 =>
  (strip (lit ",\"VERSION\":") a7.2).bind fun b8 =>
  (pstr b8).bind fun a8 =>
  (strip (lit "}") a8.2).map fun r =>
  (⟨a8.1, a1.1, a2.1, a3.1, a0.1, a7.1, a4.1, a5.1, a6.1⟩, r)

theorem pKIContents_jKIContents (x : KIContents) (r : Bytes) : pKIContents (jKIContents x ++ r) = some (x, r) := by
  simp (decide := true) only [jKIContents, pKIContents, List.append_assoc, strip_append, Option.bind_some, Option.map_some,
    pbool_jbool, pstr_jstr, pu64_ju64]


/-- `KeyInit` as marshalSorted writes it (keyinit.go:39-42, 99-101). -/
def jKI (x : KeyInit) : Bytes :=
  lit "{\"Contents\":" ++ (jKIContents x.contents ++ (
  lit ",\"SIGNATURE\":" ++ (jstr x.signature ++ (lit "}"))))

/-- Read a `KeyInit`. -/
def pKI (b : Bytes) : Option (KeyInit × Bytes) :=
  (strip (lit "{\"Contents\":") b).bind fun b0 =>
  (pKIContents b0).bind fun a0 =>
  (strip (lit ",\"SIGNATURE\":") a0.2).bind fun b1 =>
  (pstr b1).bind fun a1 =>
  (strip (lit "}") a1.2).map fun r =>
  (⟨a0.1, a1.1⟩, r)

theorem pKI_jKI (x : KeyInit) (r : Bytes) : pKI (jKI x ++ r) = some (x, r) := by
  simp (decide := true) only [jKI, pKI, List.append_assoc, strip_append, Option.bind_some, Option.map_some,
    pKIContents_jKIContents, pstr_jstr]



/-- Decode a whole JSON text (json.Unmarshal rejects trailing data). -/
def whole (p : Bytes → Option (α × Bytes)) (b : Bytes) : Option α :=
  (p b).bind fun x => if x.2 = [] then some x.1 else none

theorem whole_ok {f : α → Bytes} {p : Bytes → Option (α × Bytes)}
    (h : ∀ x r, p (f x ++ r) = some (x, r)) (x : α) : whole p (f x) = some x := by
  have := h x []
  rw [List.append_nil] at this
  simp [whole, this]

/-- Encodings that can be decoded are injective. -/
theorem inj_of {f : α → Bytes} {p : Bytes → Option (α × Bytes)}
    (h : ∀ x r, p (f x ++ r) = some (x, r)) {x y : α} (e : f x = f y) : x = y := by
  have h1 := whole_ok h x
  rw [e, whole_ok h y] at h1
  exact (Option.some.inj h1).symm

end Verif.Uid.Js

/-
Properties of UID messages, key server replies and KeyInit messages: C17, C18,
C19, C68, C69.
-/
import Verif.Uid.Model

namespace Verif.Uid

open Verif.Util

/-! ### Vocabulary of the statements -/

/-- `s` is the base64 form of a signature on `msg` that is valid under the
public key with base64 form `pub`. -/
def SignedBy (P : Prims) (pub : Str) (msg : Bytes) (s : Str) : Prop :=
  ∃ sig pk, Base64.decode s = some sig ∧ Base64.decode pub = some pk ∧ pk.length = 32 ∧
    P.verify pk msg sig = true

/-- The owner of a message holds the private key of its SIGKEY and the private
key of its first encryption key. -/
structure Keyed (P : Prims) (o : Owned) (k : Bytes) : Prop where
  priv : o.sigPriv = some k
  pub : o.msg.content.sigkey.pubkey = Base64.encode (P.edPub k)
  hash : o.msg.content.sigkey.hash = Base64.encode (P.sha512 (P.edPub k))
  enc : o.encPriv.isSome
  dh : ∃ e rest, o.msg.content.pubkeys = e :: rest ∧ e.function = lit "ECDHE25519"

/-! ### Helpers -/

theorem unb64_ok {s : Str} {b : Bytes} : unb64 s = .ok b ↔ Base64.decode s = some b := by
  unfold unb64
  cases h : Base64.decode s <;> simp

theorem unb64_encode (b : Bytes) : unb64 (Base64.encode b) = .ok b :=
  unb64_ok.mpr (Base64.decode_encode b)

theorem sigAndKey_ok {sig pub : Str} {s pk : Bytes} :
    sigAndKey sig pub = .ok (s, pk) ↔
      Base64.decode sig = some s ∧ Base64.decode pub = some pk ∧ pk.length = 32 := by
  unfold sigAndKey
  simp only [Res.bind_eq_ok, unb64_ok]
  constructor
  · rintro ⟨a, ha, b, hb, h⟩
    split at h
    · contradiction
    · injection h with h
      obtain ⟨rfl, rfl⟩ := Prod.mk.inj h
      exact ⟨ha, hb, by omega⟩
  · rintro ⟨h1, h2, h3⟩
    exact ⟨s, h1, pk, h2, by rw [if_neg (by omega)]⟩

/-- The common shape of the verification functions. -/
theorem check_sig {P : Prims} {sig pub : Str} {msg : Bytes} {e : Err} :
    (do let (s, pk) ← sigAndKey sig pub
        if P.verify pk msg s then Res.ok () else Res.err e : Res Err Unit) = .ok () ↔
      SignedBy P pub msg sig := by
  simp only [Res.bind_eq_ok]
  constructor
  · rintro ⟨⟨s, pk⟩, h, hv⟩
    obtain ⟨h1, h2, h3⟩ := sigAndKey_ok.mp h
    refine ⟨s, pk, h1, h2, h3, ?_⟩
    simp only at hv
    split at hv
    · assumption
    · contradiction
  · rintro ⟨s, pk, h1, h2, h3, hv⟩
    exact ⟨(s, pk), sigAndKey_ok.mpr ⟨h1, h2, h3⟩, by simp only [hv, if_true]⟩

theorem signedBy_sign {P : Prims} (hP : P.Good) (k msg : Bytes) :
    SignedBy P (Base64.encode (P.edPub k)) msg (Base64.encode (P.sign k msg)) :=
  ⟨_, _, Base64.decode_encode _, Base64.decode_encode _, hP.edPub_len k, hP.sign_verify k msg⟩

theorem verifySelfSig_iff {P : Prims} {m : Message} :
    verifySelfSig P m = .ok () ↔
      SignedBy P m.content.sigkey.pubkey (P.contentJSON m.content) m.selfSig := by
  unfold verifySelfSig
  exact check_sig

theorem verifyUserSig_iff {P : Prims} {m pre : Message} :
    verifyUserSig P m pre = .ok () ↔
      pre.content.msgcount + 1 = m.content.msgcount ∧
        SignedBy P pre.content.sigkey.pubkey (P.contentJSON m.content) m.userSig := by
  unfold verifyUserSig
  by_cases h : pre.content.msgcount + 1 = m.content.msgcount
  · rw [if_neg (by simp [h]), check_sig]
    simp [h]
  · rw [if_pos h]
    simp [h]

theorem enc6_ascii : ∀ n, n < 64 → Base64.enc6 n < 128 := by decide

/-- base64 text is ASCII. -/
theorem ascii_encode (b : Bytes) : Ascii (Base64.encode b) := by
  intro c hc
  induction b using Base64.encode.induct with
  | case1 => simp [Base64.encode] at hc
  | case2 x =>
    have := x.toNat_lt
    simp only [Base64.encode, List.mem_cons, List.not_mem_nil, or_false] at hc
    rcases hc with rfl | rfl | rfl | rfl
    · exact enc6_ascii _ (by omega)
    · exact enc6_ascii _ (by omega)
    · decide
    · decide
  | case3 x y =>
    have := x.toNat_lt
    have := y.toNat_lt
    simp only [Base64.encode, List.mem_cons, List.not_mem_nil, or_false] at hc
    rcases hc with rfl | rfl | rfl | rfl
    · exact enc6_ascii _ (by omega)
    · exact enc6_ascii _ (by omega)
    · exact enc6_ascii _ (by omega)
    · decide
  | case4 x y z rest ih =>
    have := x.toNat_lt
    have := y.toNat_lt
    have := z.toNat_lt
    simp only [Base64.encode, List.mem_cons] at hc
    rcases hc with rfl | rfl | rfl | rfl | hc
    · exact enc6_ascii _ (by omega)
    · exact enc6_ascii _ (by omega)
    · exact enc6_ascii _ (by omega)
    · exact enc6_ascii _ (by omega)
    · exact ih hc

theorem suite_ascii : Ascii defaultSuite := by
  have : defaultSuite.all (· < 128) = true := by decide +kernel
  intro c hc
  simpa using List.all_eq_true.mp this c hc

theorem ecdhe_ascii : Ascii (lit "ECDHE25519") := by
  have : (lit "ECDHE25519").all (· < 128) = true := by decide +kernel
  intro c hc
  simpa using List.all_eq_true.mp this c hc

/-! ### C18 UID update chains -/

/-- C18: a message that verifies against its predecessor carries the
predecessor's counter plus one (modulo 2^64) and a signature on its content that
is valid under the predecessor's signature key; and nothing else is required. -/
theorem C18_user_signature (P : Prims) (m pre : Message) :
    verifyUserSig P m pre = .ok () ↔
      (m.content.msgcount.toNat = (pre.content.msgcount.toNat + 1) % 2 ^ 64 ∧
        SignedBy P pre.content.sigkey.pubkey (P.contentJSON m.content) m.userSig) := by
  rw [verifyUserSig_iff]
  refine and_congr_left fun _ => ?_
  constructor
  · intro h
    rw [← h, UInt64.toNat_add]
    rfl
  · intro h
    apply UInt64.toNat_inj.mp
    rw [UInt64.toNat_add, h]
    rfl

theorem update_ok {P : Prims} {o o' : Owned} {r : Option Bytes} {k : Bytes} (hk : Keyed P o k)
    (h : update P o r = .ok o') :
    ∃ s, r = some s ∧ o'.sigPriv = some (P.edPriv s) ∧
      o'.encPriv = o.encPriv ∧
      o'.msg.content = { o.msg.content with
        msgcount := o.msg.content.msgcount + 1
        sigkey := ⟨defaultSuite, lit "ED25519", Base64.encode (P.sha512 (P.edPub (P.edPriv s))),
          Base64.encode (P.edPub (P.edPriv s))⟩ } ∧
      o'.msg.selfSig = Base64.encode (P.sign (P.edPriv s) (P.contentJSON o'.msg.content)) ∧
      o'.msg.userSig = Base64.encode (P.sign k (P.contentJSON o'.msg.content)) ∧
      o'.msg.escrowSig = o.msg.escrowSig ∧ o'.msg.linkAuthority = o.msg.linkAuthority := by
  cases r with
  | none => simp [update, initSigKey] at h
  | some s =>
    obtain ⟨e, rest, he, hf⟩ := hk.dh
    obtain ⟨p, hp⟩ := Option.isSome_iff_exists.mp hk.enc
    simp only [update, initSigKey, Res.bind_ok, he, List.head?_cons, hp, hf, hk.priv] at h
    simp only [ne_eq, not_true, if_false, Res.ok.injEq] at h
    subst h
    simp [hp, he]

theorem update_total {P : Prims} {o : Owned} {k : Bytes} (hk : Keyed P o k) (s : Bytes) :
    ∃ o', update P o (some s) = .ok o' := by
  obtain ⟨e, rest, he, hf⟩ := hk.dh
  obtain ⟨p, hp⟩ := Option.isSome_iff_exists.mp hk.enc
  simp only [update, initSigKey, Res.bind_ok, he, List.head?_cons, hp, hf, hk.priv]
  simp only [ne_eq, not_true, if_false]
  exact ⟨_, rfl⟩

/-- C18: an update by the owner succeeds whenever the random reader delivers,
the result verifies against its predecessor and against itself, keeps the
identity and the encryption keys, and is owned again. -/
theorem C18_update_verifies (P : Prims) (hP : P.Good) (o : Owned) (k seed : Bytes)
    (hk : Keyed P o k) :
    ∃ o', update P o (some seed) = .ok o' ∧
      verifyUserSig P o'.msg o.msg = .ok () ∧ verifySelfSig P o'.msg = .ok () ∧
      o'.msg.content.identity = o.msg.content.identity ∧
      o'.msg.content.pubkeys = o.msg.content.pubkeys ∧
      Keyed P o' (P.edPriv seed) := by
  obtain ⟨o', h⟩ := update_total hk seed
  obtain ⟨s, hs, h1, h2, h3, h4, h5, h6, h7⟩ := update_ok hk h
  injection hs with hs
  subst hs
  refine ⟨o', h, ?_, ?_, by rw [h3], by rw [h3], ?_⟩
  · rw [verifyUserSig_iff]
    refine ⟨by rw [h3], ?_⟩
    rw [hk.pub, h5]
    exact signedBy_sign hP _ _
  · rw [verifySelfSig_iff, h4]
    have : o'.msg.content.sigkey.pubkey = Base64.encode (P.edPub (P.edPriv seed)) := by rw [h3]
    rw [this]
    exact signedBy_sign hP _ _
  · exact ⟨h1, by rw [h3], by rw [h3], by rw [h2]; exact hk.enc, by rw [h3]; exact hk.dh⟩

/-- A chain of messages, each verified against the one before it. -/
def Chain (P : Prims) : Message → List Message → Prop
  | _, [] => True
  | pre, m :: rest => verifyUserSig P m pre = .ok () ∧ Chain P m rest

theorem chain_counters {P : Prims} (pre : Message) (ms : List Message) (h : Chain P pre ms) :
    ∀ (i : Nat) m, ms[i]? = some m →
      m.content.msgcount.toNat = (pre.content.msgcount.toNat + (i + 1)) % 2 ^ 64 := by
  induction ms generalizing pre with
  | nil => intro i m hm; simp at hm
  | cons a rest ih =>
    intro i m hm
    obtain ⟨h1, h2⟩ := h
    have ha := ((C18_user_signature P a pre).mp h1).1
    cases i with
    | zero =>
      simp only [List.getElem?_cons_zero, Option.some.injEq] at hm
      subst hm
      simpa using ha
    | succ i =>
      have := ih a h2 i m (by simpa using hm)
      rw [this, ha]
      omega

/-- C18, partial: along a verified chain of any length the counter strictly
increases, as long as it does not pass 2^64. Missing: the wrap-around
(`C18_counter_wraps`). -/
theorem C18_chain_increases_partial (P : Prims) (m0 : Message) (ms : List Message)
    (h : Chain P m0 ms) (hsmall : m0.content.msgcount.toNat + ms.length < 2 ^ 64) :
    ∀ (i j : Nat) a b, i < j → (m0 :: ms)[i]? = some a → (m0 :: ms)[j]? = some b →
      a.content.msgcount < b.content.msgcount := by
  have key : ∀ (i : Nat) m, (m0 :: ms)[i]? = some m →
      i ≤ ms.length ∧ m.content.msgcount.toNat = m0.content.msgcount.toNat + i := by
    intro i m hm
    have hlt := (List.getElem?_eq_some_iff.mp hm).1
    simp only [List.length_cons] at hlt
    refine ⟨by omega, ?_⟩
    cases i with
    | zero =>
      simp only [List.getElem?_cons_zero, Option.some.injEq] at hm
      subst hm; rfl
    | succ i =>
      rw [chain_counters m0 ms h i m (by simpa using hm)]
      omega
  intro i j a b hij ha hb
  obtain ⟨_, ha⟩ := key i a ha
  obtain ⟨_, hb⟩ := key j b hb
  rw [UInt64.lt_iff_toNat_lt]
  omega

/-- Repeated updates with the given random values. -/
def updates (P : Prims) (o : Owned) : List Bytes → Res Err (List Message)
  | [] => .ok []
  | r :: rs => do
    let o' ← update P o (some r)
    let ms ← updates P o' rs
    .ok (o'.msg :: ms)

/-- C18: any number of updates by the owner forms a verified chain. -/
theorem C18_updates_form_chain (P : Prims) (hP : P.Good) (o : Owned) (k : Bytes)
    (hk : Keyed P o k) (rs : List Bytes) :
    ∃ ms, updates P o rs = .ok ms ∧ ms.length = rs.length ∧ Chain P o.msg ms := by
  induction rs generalizing o k with
  | nil => exact ⟨[], rfl, rfl, trivial⟩
  | cons r rs ih =>
    obtain ⟨o', h, hu, hs, _, _, hk'⟩ := C18_update_verifies P hP o k r hk
    obtain ⟨ms, h2, hl, hc⟩ := ih o' _ hk'
    refine ⟨o'.msg :: ms, ?_, by simp [hl], hu, hc⟩
    simp only [updates, h, Res.bind_ok, h2]

/-- C18 is violated at the end of the counter range: the update of a message
with the largest counter has counter 0, and it verifies against its
predecessor. -/
theorem C18_counter_wraps (P : Prims) (hP : P.Good) (o : Owned) (k seed : Bytes)
    (hk : Keyed P o k) (hc : o.msg.content.msgcount = 18446744073709551615) :
    ∃ o', update P o (some seed) = .ok o' ∧ verifyUserSig P o'.msg o.msg = .ok () ∧
      o'.msg.content.msgcount = 0 := by
  obtain ⟨o', h, hu, _⟩ := C18_update_verifies P hP o k seed hk
  refine ⟨o', h, hu, ?_⟩
  rw [← (verifyUserSig_iff.mp hu).1, hc]
  rfl

/-! ### C68 created messages -/

theorem check_v1 {P : Prims} {m : Message} (h : check P m = .ok ()) : checkV1 m.content = .ok () := by
  unfold check at h
  simp only at h
  split at h
  · contradiction
  split at h
  · contradiction
  split at h
  · contradiction
  split at h
  · contradiction
  split at h
  · contradiction
  split at h
  · contradiction
  obtain ⟨_, _, h⟩ := Res.bind_eq_ok.mp h
  split at h
  · contradiction
  exact h

/-- C68, partial: a message created with preference "strict" and without escrow
key passes the content check and its self signature verifies, and its creator
holds its keys. Missing: escrow keys and other preferences
(`C68_created_refused`). -/
theorem C68_created_checks_partial (P : Prims) (hP : P.Good) (userID mix nym lastEntry : Str)
    (later : UInt64) (r1 r2 r3 : Option Bytes) (o : Owned)
    (h : create P userID false mix nym .strict lastEntry later r1 r2 r3 = .ok o) :
    check P o.msg = .ok () ∧ verifySelfSig P o.msg = .ok () ∧ (∃ k, Keyed P o k) ∧
      o.msg.content.identity = userID ∧ o.msg.content.msgcount = 0 := by
  unfold create at h
  by_cases hm : P.isMapped userID = false
  · simp [hm] at h
  · rw [if_neg hm] at h
    simp only [Res.bind_eq_ok] at h
    obtain ⟨⟨sk, sp⟩, h1, ⟨dh, ep⟩, h2, esc, h3, u, h4, h5⟩ := h
    cases r1 with
    | none => simp [initSigKey] at h1
    | some a =>
      cases r2 with
      | none => simp [initDHKey] at h2
      | some b =>
        simp only [initSigKey, Res.ok.injEq, Prod.mk.injEq] at h1
        simp only [initDHKey, Res.ok.injEq, Prod.mk.injEq] at h2
        obtain ⟨rfl, rfl⟩ := h1
        obtain ⟨rfl, rfl⟩ := h2
        simp only [escrowKey, Res.ok.injEq] at h3
        subst h3
        simp only [Res.ok.injEq] at h5
        subst h5
        have hmt : P.isMapped userID = true := by simpa using hm
        refine ⟨?_, ?_, ⟨_, rfl, rfl, rfl, rfl, _, _, rfl, rfl⟩, rfl, rfl⟩
        · simp only [check, checkV1, newContent, h4, Res.bind_ok, escrowZero, hmt]
          simp
        · rw [verifySelfSig_iff]
          exact signedBy_sign hP _ _

/-- C68 is violated for escrow keys and for the preferences "mandatory" and
"optional": what Create makes is refused by Check. -/
theorem C68_created_refused (P : Prims) (userID mix nym lastEntry : Str) (esc : Bool) (pfs : Pfs)
    (later : UInt64) (r1 r2 r3 : Option Bytes) (o : Owned) (hbad : esc = true ∨ pfs ≠ .strict)
    (h : create P userID esc mix nym pfs lastEntry later r1 r2 r3 = .ok o) :
    check P o.msg ≠ .ok () := by
  unfold create at h
  by_cases hm : P.isMapped userID = false
  · simp [hm] at h
  · rw [if_neg hm] at h
    simp only [Res.bind_eq_ok] at h
    obtain ⟨⟨sk, sp⟩, h1, ⟨dh, ep⟩, h2, e, h3, u, h4, h5⟩ := h
    simp only [Res.ok.injEq] at h5
    subst h5
    intro hc
    have hc := check_v1 hc
    · unfold checkV1 at hc
      by_cases hp : pfs = .strict
      · subst hp
        rcases hbad with rfl | hbad
        · have hz : escrowZero e = false := by
            cases r3 with
            | none => simp [escrowKey, initSigKey] at h3
            | some s =>
              simp only [escrowKey, initSigKey, Res.ok.injEq] at h3
              rw [← h3]
              unfold escrowZero
              have : (decide (defaultSuite = [])) = false := by decide
              simp [this]
          simp only [newContent, hz] at hc
          repeat' (split at hc <;> try contradiction)
        · exact absurd rfl hbad
      · have : pfs.string ≠ Pfs.strict.string := by cases pfs <;> simp_all <;> decide
        simp [newContent, this] at hc

/-- What a message must look like to be accepted by Check. -/
structure Acceptable (P : Prims) (m : Message) : Prop where
  version : m.content.version = lit "1.0"
  strict : m.content.prefs.forwardsec = lit "strict"
  noMix : m.content.mixaddress = [] ∧ m.content.nymaddress = []
  mapped : P.isMapped m.content.identity = true
  sigkey : m.content.sigkey.ciphersuite = defaultSuite ∧ m.content.sigkey.function = lit "ED25519"
  last : (splitId' m.content.identity).1 = lit "keyserver" ∨ ∃ e, splitEntry m.content.lastentry = .ok e
  oneSig : m.escrowSig = [] ∨ m.userSig = []
  pubkey : ∃ k, m.content.pubkeys = [k] ∧ k.ciphersuite = defaultSuite ∧ k.function = lit "ECDHE25519"
  noEscrow : ∀ k, m.content.sigescrow = some k → k.ciphersuite = [] ∧ k.function = [] ∧ k.hash = [] ∧ k.pubkey = []
  repo : m.content.repouris = [(splitId' m.content.identity).2]
  noLink : m.content.chainlink = none

theorem checkLastEntry_iff (id le : Str) : checkLastEntry id le = .ok () ↔
    ((splitId' id).1 = lit "keyserver" ∨ ∃ e, splitEntry le = .ok e) := by
  unfold checkLastEntry
  by_cases h : (splitId' id).1 = lit "keyserver"
  · simp [h]
  · rw [if_pos h]
    cases splitEntry le <;> simp [h]

/-- C68: Check accepts exactly the acceptable messages. -/
theorem C68_check_iff (P : Prims) (m : Message) : check P m = .ok () ↔ Acceptable P m := by
  have hso : Pfs.strict.string ≠ Pfs.optional.string := by decide
  have hs : Pfs.strict.string = lit "strict" := rfl
  constructor
  · intro h
    have hv := check_v1 h
    unfold check at h
    simp only at h
    split at h <;> try contradiction
    rename_i h1
    split at h <;> try contradiction
    rename_i h2
    split at h <;> try contradiction
    rename_i h3
    split at h <;> try contradiction
    rename_i h4
    split at h <;> try contradiction
    rename_i h5
    split at h <;> try contradiction
    rename_i h6
    obtain ⟨u, h7, h⟩ := Res.bind_eq_ok.mp h
    split at h <;> try contradiction
    rename_i h8
    unfold checkV1 at hv
    split at hv <;> try contradiction
    rename_i h9
    have h9 := Decidable.not_not.mp h9
    split at hv <;> try contradiction
    rename_i k hk
    split at hv <;> try contradiction
    rename_i k1
    split at hv <;> try contradiction
    rename_i k2
    split at hv <;> try contradiction
    rename_i k3
    split at hv <;> try contradiction
    rename_i k4
    split at hv <;> try contradiction
    rename_i k5
    refine ⟨Decidable.not_not.mp h1, h9.trans hs, ⟨?_, ?_⟩, by simpa using h4, ⟨Decidable.not_not.mp h5, Decidable.not_not.mp h6⟩,
      (checkLastEntry_iff _ _).mp h7, ?_, ⟨k, hk, Decidable.not_not.mp k1, Decidable.not_not.mp k2⟩, ?_, Decidable.not_not.mp k4, by simpa using k5⟩
    · exact Classical.byContradiction fun hc => h2 ⟨by rw [h9]; exact hso, hc⟩
    · exact Classical.byContradiction fun hc => h3 ⟨by rw [h9]; exact hso, hc⟩
    · exact Classical.byContradiction fun hc => h8 ⟨fun e => hc (.inl e), fun e => hc (.inr e)⟩
    · intro e he
      simp only [he, escrowZero, Bool.not_eq_false, Bool.and_eq_true, decide_eq_true_eq] at k3
      exact ⟨k3.1.1.1, k3.1.1.2, k3.1.2, k3.2⟩
  · rintro ⟨a1, a2, ⟨a3, a4⟩, a5, ⟨a6, a7⟩, a8, a9, ⟨k, b1, b2, b3⟩, a10, a11, a12⟩
    have hz : escrowZero m.content.sigescrow = true := by
      cases hk : m.content.sigescrow with
      | none => rfl
      | some k =>
        obtain ⟨e1, e2, e3, e4⟩ := a10 k hk
        simp [escrowZero, e1, e2, e3, e4]
    have hl := (checkLastEntry_iff _ _).mpr a8
    unfold check
    simp only
    rw [if_neg (by simpa using a1), if_neg (by simp [a3]), if_neg (by simp [a4]), if_neg (by simp [a5]),
      if_neg (by simpa using a6), if_neg (by simpa using a7)]
    rw [hl, Res.bind_ok, if_neg (by rcases a9 with h | h <;> simp [h])]
    unfold checkV1
    rw [if_neg (by rw [a2, hs]; simp), b1]
    simp only
    rw [if_neg (by simpa using b2), if_neg (by simpa using b3), if_neg (by simp [hz]), if_neg (by simp [← a11]), if_neg (by simp [a12])]

/-! ### C17 key server replies -/

theorem verifySrvSig_iff {P : Prims} {r : Reply} {m : Message} {srv : Str} :
    verifySrvSig P r m srv = .ok () ↔
      (∃ m', replyDecrypt P r (P.sha256 (P.msgJSON m)) =
        .ok (P.sha256 (P.sha256 (P.msgJSON m)), m')) ∧
      SignedBy P srv (P.entryJSON r.entry) r.serverSig := by
  unfold verifySrvSig
  simp only [Res.bind_eq_ok]
  constructor
  · rintro ⟨⟨idx, m'⟩, h1, h2⟩
    simp only at h2
    split at h2
    · contradiction
    · rename_i hidx
      split at h2
      · contradiction
      · have := check_sig.mp h2
        refine ⟨⟨m', ?_⟩, this⟩
        rw [h1]
        simp only [ne_eq, Decidable.not_not] at hidx
        rw [hidx]
  · rintro ⟨⟨m', h1⟩, h2⟩
    refine ⟨(_, m'), h1, ?_⟩
    simp only [ne_eq, not_true, if_false]
    exact check_sig.mpr h2

/-- C17, partial: a reply accepted for a submitted message carries the index of
that message (the double hash of its encoding) in front of its encrypted
content, the content decrypts under the hash of the message to some UID message,
and the entry is signed under the server key. Missing: that the content is the
submitted message (`C17_reply_not_bound`). -/
theorem C17_reply_index_partial (P : Prims) (r : Reply) (m : Message) (srv : Str)
    (h : verifySrvSig P r m srv = .ok ()) :
    (∃ raw, Base64.decode r.entry.uidMessageEncrypted = some raw ∧
      raw.take 32 = P.sha256 (P.sha256 (P.msgJSON m))) ∧
    (∃ m', replyDecrypt P r (P.sha256 (P.msgJSON m)) =
      .ok (P.sha256 (P.sha256 (P.msgJSON m)), m')) ∧
    SignedBy P srv (P.entryJSON r.entry) r.serverSig := by
  obtain ⟨⟨m', h1⟩, h2⟩ := verifySrvSig_iff.mp h
  refine ⟨?_, ⟨m', h1⟩, h2⟩
  unfold replyDecrypt at h1
  split at h1
  · contradiction
  · rename_i raw hraw
    refine ⟨raw, hraw, ?_⟩
    split at h1
    · contradiction
    · split at h1
      · split at h1
        · injection h1 with h1
          exact (Prod.mk.inj h1).1
        · contradiction
      · contradiction

/-- A reply whose content is the encryption of `m'` under the hash of `m`, with
the index of `m` in front, decrypts to `m'`. -/
theorem reply_with {P : Prims} (hP : P.Good) (m m' : Message) (hm' : P.parseMsg (P.msgJSON m') = some m')
    (hcEntry : Str) (hcPos : UInt64) (k iv : Bytes) (hiv : iv.length = 16) :
    ∃ ct, Cipher.ctrEncrypt P.aes (P.sha256 (P.msgJSON m)) (P.msgJSON m') iv = .ok ct ∧
      replyDecrypt P (createReply P
        (Base64.encode (P.sha256 (P.sha256 (P.msgJSON m)) ++ ct)) hcEntry hcPos k)
        (P.sha256 (P.msgJSON m)) = .ok (P.sha256 (P.sha256 (P.msgJSON m)), m') := by
  obtain ⟨_, ct, h1, h2, h3⟩ := Cipher.C66_aes_round_trip P.aes hP.aes
    (P.sha256 (P.msgJSON m)) (P.msgJSON m') iv (hP.sha256_len _) hiv
  refine ⟨ct, h1, ?_⟩
  have hl := hP.sha256_len (P.sha256 (P.msgJSON m))
  unfold replyDecrypt createReply
  simp only [Base64.decode_encode]
  rw [if_neg (by rw [List.length_append]; omega), List.drop_left' hl, h3]
  simp only [hm', List.take_left' hl]

/-- C17: the honest reply to a submitted message is accepted under the server's
key, and decrypts to the submitted message. -/
theorem C17_honest_reply_accepted (P : Prims) (hP : P.Good) (m : Message) (ha : m.Ascii)
    (hcEntry : Str) (hcPos : UInt64) (k iv : Bytes) (hiv : iv.length = 16) :
    ∃ enc, encrypt P m iv =
        .ok (P.sha256 (P.msgJSON m), P.sha256 (P.sha256 (P.msgJSON m)), enc) ∧
      verifySrvSig P (createReply P enc hcEntry hcPos k) m (Base64.encode (P.edPub k)) = .ok () ∧
      replyDecrypt P (createReply P enc hcEntry hcPos k) (P.sha256 (P.msgJSON m)) =
        .ok (P.sha256 (P.sha256 (P.msgJSON m)), m) := by
  obtain ⟨ct, h1, h2⟩ := reply_with hP m m (hP.parse_msg m ha) hcEntry hcPos k iv hiv
  refine ⟨Base64.encode (P.sha256 (P.sha256 (P.msgJSON m)) ++ ct), ?_, ?_, h2⟩
  · unfold encrypt
    simp only [h1]
  · rw [verifySrvSig_iff]
    exact ⟨⟨m, h2⟩, signedBy_sign hP _ _⟩

/-- C17 is violated: for every submitted message and every other message the
server can sign a reply that contains the other message and that verification
accepts for the submitted one. -/
theorem C17_reply_not_bound (P : Prims) (hP : P.Good) (m other : Message) (ha : other.Ascii)
    (hcEntry : Str) (hcPos : UInt64) (k : Bytes) :
    ∃ r : Reply, verifySrvSig P r m (Base64.encode (P.edPub k)) = .ok () ∧
      replyDecrypt P r (P.sha256 (P.msgJSON m)) =
        .ok (P.sha256 (P.sha256 (P.msgJSON m)), other) := by
  obtain ⟨ct, h1, h2⟩ := reply_with hP m other (hP.parse_msg other ha) hcEntry hcPos k
    (List.replicate 16 0) (by simp)
  refine ⟨_, ?_, h2⟩
  rw [verifySrvSig_iff]
  exact ⟨⟨other, h2⟩, signedBy_sign hP _ _⟩

/-! ### C69 malformed replies -/

/-- C69 is violated: decrypting a reply, and verifying it, panics exactly for
replies whose encrypted content is valid base64 of less than 48 bytes. -/
theorem C69_short_reply_panics (P : Prims) (hP : P.Good) (r : Reply) (m : Message) (srv : Str) :
    verifySrvSig P r m srv = .panic ↔
      ∃ raw, Base64.decode r.entry.uidMessageEncrypted = some raw ∧ raw.length < 48 := by
  have hdec : replyDecrypt P r (P.sha256 (P.msgJSON m)) = .panic ↔
      ∃ raw, Base64.decode r.entry.uidMessageEncrypted = some raw ∧ raw.length < 48 := by
    unfold replyDecrypt
    cases hr : Base64.decode r.entry.uidMessageEncrypted with
    | none => simp
    | some raw =>
      simp only [Option.some.injEq, exists_eq_left']
      by_cases h32 : raw.length < 32
      · simp only [h32, if_true, true_iff]; omega
      · rw [if_neg h32]
        have hp := (Cipher.C66_aes_panics P.aes (P.sha256 (P.msgJSON m)) (raw.drop 32) []).2.2.2
        have hk := hP.sha256_len (P.msgJSON m)
        rw [List.length_drop] at hp
        cases hc : Cipher.ctrDecrypt P.aes (P.sha256 (P.msgJSON m)) (raw.drop 32) with
        | panic =>
          rw [hc] at hp
          simp only [true_iff] at hp ⊢
          omega
        | err e =>
          unfold Cipher.ctrDecrypt at hc
          rw [if_neg (by omega)] at hc
          split at hc <;> contradiction
        | ok t =>
          have : ¬ (raw.length - 32 < 16) := by
            intro h
            rw [hp.mpr (Or.inr h)] at hc
            contradiction
          simp only
          cases P.parseMsg t <;> simp <;> omega
  rw [← hdec]
  unfold verifySrvSig
  cases hr : replyDecrypt P r (P.sha256 (P.msgJSON m)) with
  | panic => simp only [hr, Res.bind_panic]
  | err e => simp only [hr, Res.bind_err, reduceCtorEq]
  | ok x =>
    simp only [hr, Res.bind_ok, reduceCtorEq, iff_false]
    split
    · simp
    · split
      · simp
      · unfold sigAndKey unb64
        cases Base64.decode r.serverSig <;> simp
        cases Base64.decode srv <;> simp
        split <;> simp
        split <;> simp

/-- Signature checks on UID messages never panic. -/
theorem C69_signature_checks_total (P : Prims) (m pre : Message) (pub sig : Str) (n : Bytes) :
    verifySelfSig P m ≠ .panic ∧ verifyUserSig P m pre ≠ .panic ∧
      verifyNonce P pub n sig ≠ .panic := by
  have key : ∀ (s p : Str) (x : Bytes) (e : Err),
      (do let (s, pk) ← sigAndKey s p
          if P.verify pk x s then Res.ok () else Res.err e : Res Err Unit) ≠ .panic := by
    intro s p x e
    unfold sigAndKey unb64
    cases Base64.decode s <;> simp
    cases Base64.decode p <;> simp
    split <;> simp
    split <;> simp
  refine ⟨key _ _ _ _, ?_, key _ _ _ _⟩
  unfold verifyUserSig
  split
  · simp
  · exact key _ _ _ _

/-! ### C19 KeyInit messages -/

/-- C19: a KeyInit message is only created with a non-empty validity window that
ends neither in the past nor more than 90 days from now. -/
theorem C19_created_window (P : Prims) (now : UInt64) (o : Owned) (msgcount na nb : UInt64)
    (fallback : Bool) (repo mix nym : Str) (r : Option Bytes) (iv : Bytes) (ki : KeyInit)
    (ph pk : Str) (hnow : now.toNat < 2 ^ 63)
    (h : keyInit P now o msgcount na nb fallback repo mix nym r iv = .ok (ki, ph, pk)) :
    ki.contents.notbefore = nb ∧ ki.contents.notafter = na ∧
    nb < na ∧ now ≤ na ∧ na.toNat ≤ now.toNat + 90 * 24 * 60 * 60 := by
  unfold keyInit at h
  split at h
  · cases h
  · rename_i h1
    split at h
    · cases h
    · rename_i h2
      split at h
      · cases h
      · rename_i h3
        have hw : nb < na ∧ now ≤ na ∧ na.toNat ≤ now.toNat + 90 * 24 * 60 * 60 := by
          refine ⟨by simpa using h1, by simpa using h2, ?_⟩
          simp only [gt_iff_lt, UInt64.lt_iff_toNat_lt, UInt64.toNat_add, maxNotAfter] at h3
          have : (7776000 : UInt64).toNat = 7776000 := rfl
          omega
        refine ⟨?_, ?_, hw⟩ <;>
        · simp only [Res.bind_eq_ok] at h
          obtain ⟨kh, _, h⟩ := h
          split at h
          · cases h
          · split at h
            · cases h
            · simp only [Res.bind_eq_ok] at h
              obtain ⟨⟨dh, p⟩, _, h⟩ := h
              simp only at h
              split at h
              · cases h
              · split at h
                · split at h
                  · cases h
                  · injection h with h
                    rw [← (Prod.mk.inj h).1]
                · cases h

theorem signedBy_unchecked {P : Prims} {msg : Bytes} {sig pub : Str} {e : Err} :
    verifyUnchecked P msg sig pub e = .ok () ↔ SignedBy P pub msg sig := by
  unfold verifyUnchecked
  simp only [Res.bind_eq_ok, unb64_ok]
  constructor
  · rintro ⟨s, h1, pk, h2, h⟩
    split at h
    · contradiction
    · rename_i hl
      split at h
      · rename_i hv
        exact ⟨s, pk, h1, h2, by omega, hv⟩
      · contradiction
  · rintro ⟨s, pk, h1, h2, h3, h4⟩
    exact ⟨s, h1, pk, h2, by rw [if_neg (by omega), if_pos h4]⟩

/-- `sa` is the session anchor that a KeyInit message carries for a signature key: the
message names the hash of the key, its SESSIONANCHOR decrypts with the key's hash to the
anchor, and its SESSIONANCHORHASH is the hash of the anchor. -/
def AnchorOf (P : Prims) (ki : KeyInit) (sigPub : Str) (sa : Anchor) : Prop :=
  ∃ pk enc txt, Base64.decode sigPub = some pk ∧
    ki.contents.sigkeyhash = Base64.encode (P.sha512 (P.sha512 pk)) ∧
    Base64.decode ki.contents.sessionanchor = some enc ∧
    Cipher.ctrDecrypt P.aes ((P.sha512 pk).take 32) enc = .ok txt ∧
    P.parseAnchor txt = some sa ∧
    ki.contents.sessionanchorhash = Base64.encode (P.sha512 (P.anchorJSON sa))

theorem sessionAnchor_ok {P : Prims} {ki : KeyInit} {sigPub : Str} {sa : Anchor}
    (h : sessionAnchor P ki sigPub = .ok sa) : AnchorOf P ki sigPub sa := by
  unfold sessionAnchor at h
  simp only [Res.bind_eq_ok, unb64_ok] at h
  obtain ⟨pk, h1, h⟩ := h
  split at h
  · cases h
  · rename_i h2
    simp only [Res.bind_eq_ok, unb64_ok] at h
    obtain ⟨enc, h3, h⟩ := h
    split at h
    · rename_i txt h4
      split at h
      · cases h
      · rename_i sa' h5
        split at h
        · cases h
        · rename_i h6
          cases h
          exact ⟨pk, enc, txt, h1, Decidable.not_not.mp h2, h3, h4, h5, Decidable.not_not.mp h6⟩
    · cases h

/-- C19, partial: a KeyInit message that verifies has a non-empty validity
window that has not ended, names one of the given repositories, is signed under
the given key, and contains a consistent key for key agreement. Missing: the
upper bound on the end of the window (`C19_verify_far_future`). -/
theorem C19_verified_partial (P : Prims) (now : UInt64) (ki : KeyInit) (uris : List Str)
    (sigPub : Str) (h : keyInitVerify P now ki uris sigPub = .ok ()) :
    ki.contents.notbefore < ki.contents.notafter ∧ now ≤ ki.contents.notafter ∧
    ki.contents.repouri ∈ uris ∧
    SignedBy P sigPub (P.kiContentsJSON ki.contents) ki.signature ∧
    ∃ sa ke, AnchorOf P ki sigPub sa ∧ ke ∈ sa.pfkeys ∧
      ke.function = lit "ECDHE25519" ∧
      ∃ pk, Base64.decode ke.pubkey = some pk ∧ pk.length = 32 ∧
        Base64.decode ke.hash = some (P.sha512 pk) := by
  unfold keyInitVerify at h
  split at h
  · contradiction
  · rename_i hr
    simp only [Res.bind_eq_ok] at h
    obtain ⟨sa, hsa, ke, hke, u, hv, h⟩ := h
    split at h
    · contradiction
    · rename_i h1
      split at h
      · contradiction
      · rename_i h2
        refine ⟨by simpa using h1, by simpa using h2, by simpa using hr,
          signedBy_unchecked.mp h, sa, ke, sessionAnchor_ok hsa, ?_⟩
        unfold anchorKey at hke
        split at hke
        · rename_i k hk
          injection hke with hke
          subst hke
          refine ⟨List.mem_of_find?_eq_some hk, by simpa using List.find?_some hk, ?_⟩
          unfold keyEntryVerify at hv
          split at hv
          · contradiction
          · split at hv
            · contradiction
            · split at hv
              · contradiction
              · rename_i hh hhash
                split at hv
                · contradiction
                · split at hv
                  · contradiction
                  · rename_i pk hpk
                    split at hv
                    · contradiction
                    · rename_i hlen
                      split at hv
                      · contradiction
                      · rename_i heq
                        refine ⟨pk, hpk, by omega, ?_⟩
                        rw [hhash]
                        rw [Decidable.not_not.mp heq]
        · contradiction

/-- C19: a KeyInit message created by the owner of a UID message verifies under
the UID's signature key and repository, at every time up to the end of its
validity window. -/
theorem C19_created_verifies (P : Prims) (hP : P.Good) (now t : UInt64) (o : Owned) (k : Bytes)
    (hk : Keyed P o k) (msgcount na nb : UInt64) (fallback : Bool) (repo mix nym : Str)
    (hmix : Ascii mix) (hnym : Ascii nym) (r : Option Bytes) (iv : Bytes) (hiv : iv.length = 16)
    (ki : KeyInit) (ph pk : Str)
    (h : keyInit P now o msgcount na nb fallback repo mix nym r iv = .ok (ki, ph, pk))
    (ht : t ≤ na) :
    keyInitVerify P t ki [repo] o.msg.content.sigkey.pubkey = .ok () := by
  unfold keyInit at h
  split at h
  · cases h
  · rename_i h1
    split at h
    · cases h
    · split at h
      · cases h
      · simp only [Res.bind_eq_ok, unb64_ok] at h
        obtain ⟨kh, hkh, h⟩ := h
        rw [hk.hash, Base64.decode_encode] at hkh
        injection hkh with hkh
        subst hkh
        split at h
        · cases h
        · split at h
          · cases h
          · simp only [Res.bind_eq_ok] at h
            obtain ⟨⟨dh, p⟩, hdh, h⟩ := h
            cases r with
            | none => simp [initDHKey] at hdh
            | some s =>
              simp only [initDHKey, Res.ok.injEq, Prod.mk.injEq] at hdh
              obtain ⟨hdh, rfl⟩ := hdh
              simp only at h
              split at h
              · cases h
              · have hkl : ((P.sha512 (P.edPub k)).take 32).length = 32 := by
                  rw [List.length_take, hP.sha512_len]; rfl
                obtain ⟨_, ct, hc1, hc2, hc3⟩ := Cipher.C66_aes_round_trip P.aes hP.aes
                  ((P.sha512 (P.edPub k)).take 32) (P.anchorJSON ⟨mix, nym, [dh]⟩) iv hkl hiv
                rw [hc1] at h
                simp only [hk.priv, Res.ok.injEq, Prod.mk.injEq] at h
                obtain ⟨rfl, -, -⟩ := h
                have hdhA : dh.Ascii := by
                  rw [← hdh]
                  exact ⟨suite_ascii, ecdhe_ascii,
                    ascii_encode _, ascii_encode _⟩
                have hA : (⟨mix, nym, [dh]⟩ : Anchor).Ascii :=
                  ⟨hmix, hnym, by intro e he; rw [List.mem_singleton.mp he]; exact hdhA⟩
                unfold keyInitVerify
                simp only [List.contains_cons, beq_self_eq_true, Bool.true_or, Bool.true_eq_false,
                  if_false]
                have hsa : sessionAnchor P
                    ⟨{ version := lit "1.0", msgcount := msgcount, notafter := na
                       notbefore := nb, fallback := fallback
                       sigkeyhash := Base64.encode (P.sha512 (P.sha512 (P.edPub k)))
                       repouri := repo, sessionanchor := Base64.encode ct
                       sessionanchorhash := Base64.encode (P.sha512 (P.anchorJSON ⟨mix, nym, [dh]⟩)) },
                     Base64.encode (P.sign k (P.kiContentsJSON { version := lit "1.0", msgcount := msgcount, notafter := na, notbefore := nb, fallback := fallback, sigkeyhash := Base64.encode (P.sha512 (P.sha512 (P.edPub k))), repouri := repo, sessionanchor := Base64.encode ct, sessionanchorhash := Base64.encode (P.sha512 (P.anchorJSON ⟨mix, nym, [dh]⟩)) }))⟩
                    o.msg.content.sigkey.pubkey = .ok ⟨mix, nym, [dh]⟩ := by
                  unfold sessionAnchor
                  rw [hk.pub, unb64_encode]
                  simp only [Res.bind_ok, ne_eq, not_true, if_false, unb64_encode, hc3,
                    hP.parse_anchor _ hA]
                rw [hsa]
                have hkey : anchorKey ⟨mix, nym, [dh]⟩ (lit "ECDHE25519") = .ok dh := by
                  unfold anchorKey
                  have : dh.function = lit "ECDHE25519" := by rw [← hdh]
                  simp [this]
                have hver : keyEntryVerify P dh = .ok () := by
                  unfold keyEntryVerify
                  rw [← hdh]
                  simp [Base64.decode_encode, hP.sha512_len, hP.dhPub_len]
                simp only [Res.bind_ok, hkey, hver]
                rw [if_neg h1, if_neg (by simpa using ht), hk.pub]
                exact signedBy_unchecked.mpr (signedBy_sign hP _ _)

/-- C19 is violated by verification: a message whose window ends more than 90
days from now verifies. -/
theorem C19_verify_far_future (P : Prims) (hP : P.Good) (o : Owned) (k : Bytes) (hk : Keyed P o k)
    (repo : Str) (rest : List Str) (hr : o.msg.content.repouris = repo :: rest) :
    ∃ ki : KeyInit, keyInitVerify P 1000 ki [repo] o.msg.content.sigkey.pubkey = .ok () ∧
      1000 + 90 * 24 * 60 * 60 < ki.contents.notafter.toNat := by
  have hkl : ((P.sha512 (P.edPub k)).take 32).length = 32 := by
    rw [List.length_take, hP.sha512_len]; rfl
  have hex : ∃ ki ph pk, keyInit P 10000000000 o 0 10000000001 0 false repo [] []
      (some []) (List.replicate 16 0) = .ok (ki, ph, pk) ∧ ki.contents.notafter = 10000000001 := by
    unfold keyInit
    rw [if_neg (by decide), if_neg (by decide), if_neg (by decide), hk.hash, unb64_encode]
    simp only [Res.bind_ok, hr, ne_eq, not_true, if_false, initDHKey, hP.sha512_len]
    obtain ⟨_, ct, hc1, -, -⟩ := Cipher.C66_aes_round_trip P.aes hP.aes
      ((P.sha512 (P.edPub k)).take 32)
      (P.anchorJSON ⟨[], [], [⟨defaultSuite, lit "ECDHE25519", Base64.encode (P.sha512 (P.dhPub [])),
        Base64.encode (P.dhPub [])⟩]⟩) (List.replicate 16 0) hkl (by simp)
    rw [hc1]
    simp only [hk.priv]
    exact ⟨_, _, _, rfl, rfl⟩
  obtain ⟨ki, ph, pk, h, hna⟩ := hex
  refine ⟨ki, C19_created_verifies P hP _ 1000 o k hk _ _ _ _ _ _ _ (by simp [Ascii])
    (by simp [Ascii]) _ _ (by simp) ki ph pk h (by decide), ?_⟩
  rw [hna]
  decide

end Verif.Uid

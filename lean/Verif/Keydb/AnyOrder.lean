import Verif.Keydb.Talk
import Verif.Msg.AnyOrder
/-
C144: a first batch of messages of users whose sessions are in the key database, with a new process
for every message, opened in whatever order they arrive.
-/
set_option autoImplicit false
namespace Verif.Keydb
open Verif.Msg Verif.Sql Prog
open Wire (newOuter newPre readFirst)

/-- Runs of `mutecrypt encrypt` (cryptengine/encrypt.go:24-127), one after the other: the encoded
messages in order. `none` if one of them fails. -/
def dbSendAll (P : Prims) (L : Link) : List Round → Store → Option (List Str × Store)
  | [], A => some ([], A)
  | r :: rs, A =>
    match dbEncrypt P L r A with
    | (.ok _, A') =>
      match dbSendAll P L rs A' with
      | some (ws, A'') => some (A'.out.drop A.out.length :: ws, A'')
      | none => none
    | _ => none

/-- One run of `mutecrypt decrypt` (cryptengine/decrypt.go:40-96) on an encoded message: content,
sender and signature, and the database afterwards, also if the run fails. -/
def dbTry (P : Prims) (L : Link) (fresh : Bytes) (wire : Str) (B : Store) :
    Option (Bytes × Str × Str) × Store :=
  match P.unb64 wire with
  | none => (none, B)
  | some b =>
    match readFirst b with
    | .ok (_, pre, rest) =>
      match (decrypt P ⟨[L.bob], pre, rest, L.nB, fresh⟩).run (Store.handle P) B.connect with
      | (.ok (sender, sig), B') => (some (B'.out.drop B.out.length, sender, sig), B')
      | (_, B') => (none, B')
    | _ => (none, B)

/-- Runs one after the other; a failed one does not end the list. -/
def dbOpenAll (P : Prims) (L : Link) : List (Bytes × Str) → Store →
    List (Option (Bytes × Str × Str))
  | [], _ => []
  | (fresh, wire) :: xs, B =>
    (dbTry P L fresh wire B).1 :: dbOpenAll P L xs (dbTry P L fresh wire B).2

section
variable {P : Prims} (hP : P.Good)
include hP

/-! ### The sender's side -/

/-- One run that succeeds with the sessions in memory succeeds with the database. -/
theorem db_send_one {L : Link} {uid : UID} (hL : L.OK P uid) {r : Round} (hr : r.OK P uid)
    {s : Bytes} {k n : Nat} {A A1 A' : MemStore} {ss : State} {nym nym' : Str} {SA : Store}
    (hA : (encSession P (L.encArgs r) r.rnd (effKeys L.nA) (L.stateKeyA P)).run
        (MemStore.handle P) A = (.ok (ss, nym), A1))
    (cA : Cov P (encSession P (L.encArgs r) r.rnd (effKeys L.nA) (L.stateKeyA P)) A)
    (hss : AState P L s k ss) (z1 : ss.senderSessionCount = 0) (z2 : ss.maxRecipientCount = 0)
    (hA1 : ∃ t, A1.sessions (L.keyA P s) = some t ∧ t.send.length = n) (hk : k < n) (hn : n < 2 ^ 63)
    (hrun : (encrypt P (L.encArgs r) r.rnd).run (MemStore.handle P) A = (.ok nym', A'))
    (RA : Rep A SA) :
    ∃ SA', dbEncrypt P L r SA = (.ok nym', SA') ∧ Rep A' SA' ∧
      SA'.out.drop SA.out.length = A'.out.drop A.out.length ∧
      A'.states (L.stateKeyA P) = some { ss with senderMessageCount := ss.senderMessageCount + 1 } ∧
      A'.skeys = A1.skeys ∧ ∃ t, A'.sessions (L.keyA P s) = some t ∧ t.send.length = n := by
  obtain ⟨t, ht, hlen⟩ := hA1
  have e1 : (L.encArgs r).from.pubKey.pub32 P = some (P.dhPub L.aPriv) := by
    rw [show (L.encArgs r).from.pubKey = initDHKey P L.aPriv from hL.a]
    exact initDHKey_pub32 P hP _
  have e2 : (L.encArgs r).to.pubKey.pub32 P = some (P.dhPub L.bPriv) := by
    rw [show (L.encArgs r).to.pubKey = (initDHKey P L.bPriv).public by
      simp only [Link.encArgs, hL.b]]
    exact initDHKey_public_pub32 P hP _
  have hkeyA : encSessionKey P (L.encArgs r) ss = L.keyA P s := by
    simp only [encSessionKey, Link.encArgs, hL.a, hL.b, hss.own, hss.hash]; rfl
  have covE : Cov P (encrypt P (L.encArgs r) r.rnd) A :=
    cov_encrypt hP e1 e2 hA cA (t := t) (by rw [hkeyA]; exact ht) hss.count (by omega) (by omega) z1 z2
  obtain ⟨mk, t', w1, w2, w3, w4, w5, w6⟩ := encrypt_wire hP hL hr hA hss ht (by omega) (by omega) hrun
  obtain ⟨nym2, SA', hS1, rfl, RA'⟩ := (rel_encrypt P (L.encArgs r) r.rnd).sim P RA.connect covE hrun
  exact ⟨SA', hS1, RA', by rw [RA'.out, RA.out], w3, w4, t', w5, by omega⟩

/-- The sender's side within a session. -/
structure DSend (P : Prims) (L : Link) (s : Bytes) (k : Nat) (rs : List Round) (A : MemStore)
    (SA : Store) : Prop where
  rep : Rep A SA
  st : ∃ ss, A.states (L.stateKeyA P) = some ss ∧ AState P L s k ss ∧
    ss.senderSessionCount = 0 ∧ ss.maxRecipientCount = 0 ∧
    (ss.nextSenderSessionPub = none → ∀ r ∈ rs, A.skeys (keyHash P r.rnd.nextPriv) = none)
  len : ∃ t, A.sessions (L.keyA P s) = some t ∧ t.send.length = (effKeys L.nA).toNat

/-- Messages sent with the sessions in memory and with the database: the same is written. -/
inductive AllSent (P : Prims) (L : Link) : List Round → List Str → MemStore → Store → Prop
  | nil (A : MemStore) (SA : Store) : AllSent P L [] [] A SA
  | cons {r : Round} {rs : List Round} {w nym : Str} {ws : List Str} {A A' : MemStore} {SA SA' : Store}
      (mem : (encrypt P (L.encArgs r) r.rnd).run (MemStore.handle P) A = (.ok nym, A'))
      (db : dbEncrypt P L r SA = (.ok nym, SA')) (out : SA'.out.drop SA.out.length = w)
      (t : AllSent P L rs ws A' SA') : AllSent P L (r :: rs) (w :: ws) A SA

omit hP in
theorem AllSent.all {L : Link} {rs : List Round} {ws : List Str} {A : MemStore} {SA : Store}
    (h : AllSent P L rs ws A SA) : ∃ SA', dbSendAll P L rs SA = some (ws, SA') := by
  induction h with
  | nil A SA => exact ⟨SA, rfl⟩
  | cons mem db out t ih =>
    obtain ⟨SA', h⟩ := ih
    exact ⟨SA', by simp only [dbSendAll, db, h, out]⟩

theorem dbSend_later {L : Link} {uid : UID} (hL : L.OK P uid) {s : Bytes} (rs : List Round)
    (hrs : ∀ r ∈ rs, r.OK P uid) (hx : ∀ r ∈ rs, r.rnd.nextPriv ≠ []) (k : Nat)
    (hk : k + rs.length ≤ (effKeys L.nA).toNat) (A A' : MemStore) (SA : Store)
    (D : DSend P L s k rs A SA) (ws : List Str) (h : sendAll P L rs A = some (ws, A')) :
    AllSent P L rs ws A SA := by
  have nA := effKeys_lt hL.nA
  induction rs generalizing k A SA ws with
  | nil =>
    simp only [sendAll, Option.some.injEq, Prod.mk.injEq] at h
    obtain ⟨rfl, rfl⟩ := h
    exact .nil _ _
  | cons r rs ih =>
    simp only [List.length_cons] at hk
    obtain ⟨ss0, hst, hss0, z1, z2, hfr⟩ := D.st
    obtain ⟨ss, A1, h1, hc, h3, h4⟩ := encSession_later' hP (L := L) r hst z1 z2
      (by rw [hss0.count, ofNat_toNat (show k < 2 ^ 64 by omega)]; omega) (hx r (by simp))
      (fun hn => hfr hn r (by simp))
    obtain ⟨ss2, nym2, A2', h1', h2, -⟩ := encSession_later (P := P) r hst hss0
    rw [h1] at h1'
    obtain ⟨e1, rfl⟩ := Prod.mk.inj h1'
    obtain ⟨rfl, rfl⟩ : ss = ss2 ∧ ss0.nymAddress = nym2 := by simpa using e1
    have z1' : ss.senderSessionCount = 0 := by
      rcases h4 with ⟨rfl, -⟩ | rfl
      · exact z1
      · exact z1
    have z2' : ss.maxRecipientCount = 0 := by
      rcases h4 with ⟨rfl, -⟩ | rfl
      · exact z2
      · exact z2
    rw [sendAll] at h
    generalize hrun : (encrypt P (L.encArgs r) r.rnd).run (MemStore.handle P) A = x at h
    obtain ⟨res, A2⟩ := x
    cases res with
    | err e => simp at h
    | panic => simp at h
    | ok nym' =>
      simp only at h
      obtain ⟨SA', q1, q2, q3, q4, q5, q6⟩ := db_send_one hP hL (hrs r (by simp)) h1 hc h2 z1' z2'
        (by obtain ⟨t, a, b⟩ := D.len; exact ⟨t, by rw [h3]; exact a, b⟩) (by omega) (by omega) hrun D.rep
      generalize hrest : sendAll P L rs A2 = y at h
      cases y with
      | none => simp at h
      | some y =>
        obtain ⟨ws', A3⟩ := y
        simp only [Option.some.injEq, Prod.mk.injEq] at h
        obtain ⟨rfl, rfl⟩ := h
        refine .cons hrun q1 q3 (ih (fun r hr => hrs r (by simp [hr])) (fun r hr => hx r (by simp [hr]))
          (k + 1) (by omega) A2 SA' ⟨q2, ⟨_, q4, ⟨h2.own, h2.hash, h2.pub, h2.seen,
            by simp only [h2.count]; simp, h2.next⟩, z1', z2', fun hn r' hr' => by
              rw [q5]
              rcases h4 with ⟨rfl, e⟩ | rfl
              · rw [e]; exact hfr hn r' (by simp [hr'])
              · simp at hn⟩, q6⟩ ws' hrest)

omit hP in
theorem effKeys_pos (n : UInt64) : 0 < (effKeys n).toNat := by
  have h1 := effKeys_ne n
  have h2 : (effKeys n).toNat ≠ (0 : UInt64).toNat := fun e => h1 (UInt64.toNat_inj.mp e)
  have h0 : (0 : UInt64).toNat = 0 := rfl
  omega

theorem dbSend_sent {L : Link} {uid : UID} (hL : L.OK P uid) (rs : List Round)
    (hrs : ∀ r ∈ rs, r.OK P uid) (hd : FirstDifferent P L rs) (hx : Drawn P rs)
    (hk : rs.length ≤ (effKeys L.nA).toNat) (SA SB : Store) (hS : Begin P L SA SB) (A' : MemStore)
    (ws : List Str) (h : sendAll P L rs SA.mem = some (ws, A')) :
    AllSent P L rs ws SA.mem SA := by
  have nA := effKeys_lt hL.nA
  cases rs with
  | nil =>
    simp only [sendAll, Option.some.injEq, Prod.mk.injEq] at h
    obtain ⟨rfl, rfl⟩ := h
    exact .nil _ _
  | cons r rs =>
    simp only [List.length_cons] at hk
    have hSt := hS.start
    obtain ⟨ss, nym, A1, t, h1, h2, h3, h4⟩ := encSession_first hP hL r (hd r (by simp)) hSt
    obtain ⟨n1, n2, n3⟩ := hx.ne r (by simp)
    obtain ⟨A1', g1, g2, g3⟩ := encSession_first' hP hL r (hd r (by simp)) hSt n1 rfl
    rw [g1] at h1
    obtain ⟨h11, rfl⟩ := Prod.mk.inj h1
    obtain ⟨rfl, rfl⟩ : startState P L r.rnd.sessPriv (SA.mem.nyms L.bob.identity) = ss ∧
        SA.mem.nyms L.bob.identity = nym := by
      simpa using h11
    rw [sendAll] at h
    generalize hrun : (encrypt P (L.encArgs r) r.rnd).run (MemStore.handle P) SA.mem = x at h
    obtain ⟨res, A2⟩ := x
    cases res with
    | err e => simp at h
    | panic => simp at h
    | ok nym' =>
      simp only at h
      obtain ⟨SA', q1, q2, q3, q4, q5, q6⟩ := db_send_one hP hL (hrs r (by simp)) g1 g3 h2 rfl rfl
        ⟨t, h4.sess, h4.slen⟩ (by have := effKeys_pos L.nA; omega) (by omega) hrun (Store.mem_rep hS.a)
      generalize hrest : sendAll P L rs A2 = y at h
      cases y with
      | none => simp at h
      | some y =>
        obtain ⟨ws', A3⟩ := y
        simp only [Option.some.injEq, Prod.mk.injEq] at h
        obtain ⟨rfl, rfl⟩ := h
        refine .cons hrun q1 q3 (dbSend_later hP hL (s := r.rnd.sessPriv) rs
          (fun r hr => hrs r (by simp [hr])) (fun r hr => (hx.ne r (by simp [hr])).2.1)
          1 (by omega) A2 A3 SA' ⟨q2, ⟨_, q4, ⟨h2.own, h2.hash, h2.pub, h2.seen,
            by simp only [h2.count]; simp, h2.next⟩, rfl, rfl, fun hn r' hr' => by
              rw [q5, g2, upd_other _ _ (hx.diff r (by simp) r' (by simp [hr']))]
              rfl⟩, q6⟩ ws' hrest)

/-! ### The recipient's side -/

/-- The recipient starts the session with whichever message comes first. -/
theorem cov_decSession_start {L : Link} {uid : UID} (hL : L.OK P uid) (a : DecArgs) (hp : Bytes)
    {h : Header} {s : Bytes}
    (h3 : h.senderSessionPub = (initDHKey P s).public)
    (h4 : h.senderIdentityPub = (initDHKey P L.aPriv).public)
    (h5 : h.recipientTempHash = keyHash P L.kPriv)
    (h8 : h.nextSenderSessionPub = none ∨ ∃ x, h.nextSenderSessionPub = some (initDHKey P x).public ∧
      AllDifferent [hp, P.dhPub L.bPriv, P.dhPub a.fresh, P.dhPub L.aPriv, P.dhPub x] ∧
      calcKey P (keyHash P L.bPriv) (keyHash P L.aPriv) (keyHash P a.fresh) (keyHash P x) ≠ L.keyB P s)
    (hd : AllDifferent [hp, P.dhPub L.aPriv, P.dhPub s, P.dhPub L.bPriv, P.dhPub L.kPriv])
    {A B : MemStore} (hS : L.Start P A B) (hx : a.fresh ≠ []) (hfr : B.skeys (keyHash P a.fresh) = none) :
    Cov P (decSession P a (effKeys L.nB) hp L.bob h) B := by
  have hkey : decSessionKey P L.bob h = L.keyB P s := by
    simp only [decSessionKey, Link.keyB, hL.b, h3, h4, h5]; rfl
  have hrl := deriveRootKey_len P hP (P.dh L.aPriv (P.dhPub L.kPriv)) (P.dh s (P.dhPub L.kPriv))
      (P.dh s (P.dhPub L.bPriv)) none
  generalize hroot : deriveRootKey P (P.dh L.aPriv (P.dhPub L.kPriv)) (P.dh s (P.dhPub L.kPriv))
      (P.dh s (P.dhPub L.bPriv)) none = root at hrl
  obtain ⟨t, ft, rt⟩ := run_generate_new P h.senderIdentity L.bob.identity
    (initDHKey P L.aPriv).public.hash (initDHKey P L.bPriv).hash
    root true (P.dhPub s) (P.dhPub L.kPriv) (effKeys L.nB)
    (effKeys_ne _) B (hS.sessB _)
  have ct := covers_generate hP (si := h.senderIdentity) (ri := L.bob.identity)
    (sh := (initDHKey P L.aPriv).public.hash) (rh := (initDHKey P L.bPriv).hash) hrl (b := true)
    (sp := P.dhPub s) (rp := P.dhPub L.kPriv) (effKeys_ne L.nB) (effKeys_lt hL.nB) (ms := B) (hS.sessB _)
  have hk2 : genKey P (initDHKey P L.aPriv).public.hash (initDHKey P L.bPriv).hash true (P.dhPub s)
      (P.dhPub L.kPriv) = L.keyB P s := rfl
  rw [hk2] at rt
  unfold decSession
  simp only [bind_eq, hL.b, h4, initDHKey_pub32 P hP, initDHKey_public_pub32 P hP, orPanic, ret_bind]
  refine Cov.bind (a := none) (ms1 := B) (by
    rw [run_ask_ok]; simp only [MemStore.handle]; rw [show calcStateKey P (P.dhPub L.bPriv)
      (P.dhPub L.aPriv) = L.stateKeyB P from rfl, hS.stB]) (Cov.ask (b64_sha_ne hP _)) ?_
  refine Cov.bind (a := false) (ms1 := B) (by
    rw [run_try', hkey]; simp only [MemStore.handle, MemStore.hasSession, hS.sessB,
      Option.isSome_none]) (Cov.try' trivial) ?_
  rw [if_neg (by simp)]
  unfold decUnknown
  simp only [bind_eq]
  refine Cov.bind (a := .ok (initDHKey P L.kPriv)) (ms1 := B) (by
    rw [run_try', h5]; simp only [MemStore.handle, MemStore.getPrivateKeyEntry, hS.priv]) (Cov.try' trivial) ?_
  simp only [if_true, hL.b]
  rw [h4, h3, rkaRecipient_eq P hP hp _ _ s L.aPriv L.kPriv L.bPriv _ _ (initDHKey_public_pub32 P hP _)
    (initDHKey_public_pub32 P hP _) none _ hd, hroot]
  refine Cov.bind rt ct ?_
  let B2 := (MemStore.handle P (.addSKey (initDHKey P a.fresh).hash (initDHKey P a.fresh).public
    (P.b64 a.fresh)) (B.setSess (L.keyB P s) t)).2
  have hB2 : B2.sessions (L.keyB P s) = some t := upd_same _ _ _
  have hadd : (addSessionKey P (initDHKey P a.fresh)).run (MemStore.handle P) (B.setSess (L.keyB P s) t) =
      (.ok (), B2) := by
    simp only [addSessionKey, bind_eq, initDHKey_priv32, orPanic, ret_bind]
    rw [run_ask_ok]; rfl
  have cset : ∀ (sb : State) (ms : MemStore), sb.senderSessionCount = 0 → sb.senderMessageCount = 0 →
      sb.maxRecipientCount = 0 →
      Cov P ((Prog.ask (.setState (L.stateKeyB P) sb)).bind fun _ => Prog.ret (some sb)) ms := by
    intro sb ms q1 q2 q3
    refine Cov.bind' (Cov.ask ⟨b64_sha_ne hP _, ?_, ?_, ?_⟩) fun _ _ _ => trivial
    · rw [q1]; decide
    · rw [q2]; decide
    · rw [q3]; decide
  refine Cov.bind hadd (cov_addSKey hP hx hfr) ?_
  rcases h8 with h8 | ⟨x, h8, hd2, hne⟩
  · simp only [h8]
    rw [ret_bind]
    exact cset _ _ rfl rfl rfl
  · simp only [h8]
    have hgk : genKey P (initDHKey P L.bPriv).hash (initDHKey P L.aPriv).public.hash false
        (P.dhPub a.fresh) (P.dhPub x) =
        calcKey P (keyHash P L.bPriv) (keyHash P L.aPriv) (keyHash P a.fresh) (keyHash P x) := rfl
    have hno : B2.sessions (genKey P (initDHKey P L.bPriv).hash (initDHKey P L.aPriv).public.hash false
        (P.dhPub a.fresh) (P.dhPub x)) = none := by
      rw [hgk]
      show Msg.upd B.sessions _ _ _ = none
      rw [upd_other _ _ hne]; exact hS.sessB _
    have hrh : B2.getRootKeyHash P (L.keyB P s) = .ok (P.sha512 root) := by
      unfold MemStore.getRootKeyHash
      rw [hB2]
      simp only [ft.1, hP.unb64_b64, hP.sha512_len]
      rw [if_neg (by omega), List.take_of_length_le (by rw [hP.sha512_len]; omega)]
    have c2 := covers_generate hP (si := L.bob.identity) (ri := h.senderIdentity)
      (sh := (initDHKey P L.bPriv).hash) (rh := (initDHKey P L.aPriv).public.hash)
      (deriveRootKey_len P hP (P.dh L.bPriv (P.dhPub x)) (P.dh a.fresh (P.dhPub x))
        (P.dh a.fresh (P.dhPub L.aPriv)) (some (P.sha512 root))) (b := false)
      (sp := P.dhPub a.fresh) (rp := P.dhPub x) (effKeys_ne L.nB) (effKeys_lt hL.nB) (ms := B2) hno
    rw [hkey]
    refine Cov.bind (a := P.sha512 root) (ms1 := B2) (by
        rw [run_ask_ok]; simp only [MemStore.handle, hrh]) (Cov.ask trivial) ?_
    rw [rkaSender_eq P hP hp _ _ a.fresh L.bPriv x L.aPriv _ _ (initDHKey_public_pub32 P hP _)
        (initDHKey_public_pub32 P hP _) _ _ hd2]
    refine Cov.bind' c2 fun _ ms _ => ?_
    exact cset _ _ rfl rfl rfl


/-- One attempt succeeds with the sessions in memory and with the database, and gives the same. -/
def BothOpen (P : Prims) (L : Link) (fresh : Bytes) (wire : Str) (x : Bytes × Str × Str)
    (B B' : MemStore) (SB SB' : Store) : Prop :=
  ∃ b pre rest, P.unb64 wire = some b ∧ readFirst b = .ok (1, pre, rest) ∧
    (decrypt P ⟨[L.bob], pre, rest, L.nB, fresh⟩).run (MemStore.handle P) B = (.ok x.2, B') ∧
    (decrypt P ⟨[L.bob], pre, rest, L.nB, fresh⟩).run (Store.handle P) SB.connect = (.ok x.2, SB') ∧
    B'.out.drop B.out.length = x.1 ∧ SB'.out.drop SB.out.length = x.1

omit hP in
theorem BothOpen.db {L : Link} {fresh : Bytes} {wire : Str} {x : Bytes × Str × Str} {B B' : MemStore}
    {SB SB' : Store} (h : BothOpen P L fresh wire x B B' SB SB') : dbTry P L fresh wire SB = (some x, SB') := by
  obtain ⟨b, pre, rest, h1, h2, h3, h4, h5, h6⟩ := h
  unfold dbTry
  rw [h1]
  simp only
  rw [h2]
  simp only
  rw [h4]
  simp only [h6]

/-- A message of the batch that was not opened yet. -/
theorem db_open_sent {L : Link} {uid : UID} (hL : L.OK P uid)
    (hparse : ∀ h : Header, h.Clean → (P.marshal h).length = 7152 → P.parse (P.marshal h) = some h)
    {all : List Round} {r : Round} (hr : r.OK P uid) {s : Bytes} {i : Nat} {w : Str}
    (hw : Sent P L all s (rootOf P L s) i r w) {B : MemStore} {SB : Store} {win : Window} (fresh : Bytes)
    (hB : ∀ a ss, a.fresh = fresh → AState P L s i ss → NextIn P all ss →
      Cov P (decSession P a (effKeys L.nB) (P.dhPub r.rnd.headerPriv) L.bob (mkHeader (L.encArgs r) r.rnd ss)) B ∧
      ∃ B1 sb t, (decSession P a (effKeys L.nB) (P.dhPub r.rnd.headerPriv) L.bob
        (mkHeader (L.encArgs r) r.rnd ss)).run (MemStore.handle P) B = (.ok (some sb), B1) ∧
      BState P L s sb ∧ B1.states (L.stateKeyB P) = some sb ∧
      AnyInv P (effKeys L.nB) (L.keyB P s) (rootOf P L s) (P.dhPub L.kPriv) (L.fix P) win B1 t)
    (h1 : i ∉ win.opened) (h2 : i < win.keys) (h3 : win.keys < 2 ^ 63) (RB : Rep B SB) :
    ∃ B' SB', BothOpen P L fresh w (r.content, L.alice.identity, sigOf P r.sigKey r.content) B B' SB SB' ∧
      Within P L s ⟨win.keys, i :: win.opened⟩ B' ∧ Rep B' SB' := by
  have hacc : win.accepts (effKeys L.nB).toNat i = true := by
    unfold Window.accepts; simp [h1, h2]
  obtain ⟨B', g1, g2, -⟩ := openStep_sent hP hL hparse hr (by omega) hw fresh (win := win) (B := B)
    (fun a ss ha hss hn => (hB a ss ha hss hn).2)
  rw [if_pos hacc] at g1
  unfold Window.after at g2
  rw [if_pos hacc, if_pos h2] at g2
  obtain ⟨ss, hss, hn, e5, e8, rfl⟩ := hw
  unfold openStep at g1
  rw [hP.unb64_b64] at g1
  simp only [messageBytes] at g1
  rw [List.append_assoc, show Wire.preHeaderPacket = 1 from rfl,
    Wire.C04_first_roundtrip _ _ (by rw [hP.dhPub_len]; omega)] at g1
  simp only at g1
  have hh := decHead_message P hP r.rnd hr.rnd (mkHeader (L.encArgs r) r.rnd ss) e5
    (hparse _ (mkHeader_clean _ _ _) e5) (mkHeader_verify hP hL r hss) L.bob L.bPriv hL.b
    (encBody P (senderKey P (rootOf P L s) (P.dhPub L.kPriv) (L.fix P) i) r.rnd r.sigKey r.content) L.nB fresh
  obtain ⟨cB, B1, sb, tb, d1, d2, d3, d4⟩ := hB ⟨[L.bob], (newPre (P.dhPub r.rnd.headerPriv)).write,
        (newOuter Wire.encryptedHeader 1 (r.rnd.nonce ++ be16 7168 ++
          P.boxSeal (P.marshal (mkHeader (L.encArgs r) r.rnd ss)) r.rnd.nonce (P.dhPub L.bPriv)
            r.rnd.headerPriv)).write true ++ encBody P (senderKey P (rootOf P L s) (P.dhPub L.kPriv) (L.fix P) i)
              r.rnd r.sigKey r.content, L.nB, fresh⟩ ss rfl hss hn
  have hkeyB : decSessionKey P L.bob (mkHeader (L.encArgs r) r.rnd ss) = L.keyB P s := by
    simp only [decSessionKey, Link.keyB, mkHeader, Link.encArgs, hL.a, hL.b, hss.own, hss.hash]; rfl
  have hsl := d4.slen
  obtain ⟨covD, -⟩ := cov_decrypt hh d1 cB (by rw [hkeyB]; exact d4.sess) hss.count (by omega) (by omega)
  generalize hrd : (decrypt P ⟨[L.bob], (newPre (P.dhPub r.rnd.headerPriv)).write,
        (newOuter Wire.encryptedHeader 1 (r.rnd.nonce ++ be16 7168 ++
          P.boxSeal (P.marshal (mkHeader (L.encArgs r) r.rnd ss)) r.rnd.nonce (P.dhPub L.bPriv)
            r.rnd.headerPriv)).write true ++ encBody P (senderKey P (rootOf P L s) (P.dhPub L.kPriv) (L.fix P) i)
              r.rnd r.sigKey r.content, L.nB, fresh⟩).run
        (MemStore.handle P) B = y at g1
  obtain ⟨res, B2⟩ := y
  cases res with
  | err e => simp at g1
  | panic => simp at g1
  | ok v =>
  obtain ⟨v1, v2⟩ := v
  simp only [Prod.mk.injEq, Option.some.injEq] at g1
  obtain ⟨⟨o1, rfl, rfl⟩, rfl⟩ := g1
  obtain ⟨v2, SB', hS2, rfl, RB'⟩ := (rel_decrypt P _).sim P RB.connect covD hrd
  refine ⟨B2, SB', ⟨_, _, _, hP.unb64_b64 _, ?_, hrd, hS2, o1, ?_⟩, g2, RB'⟩
  · simp only [messageBytes]
    rw [List.append_assoc, show Wire.preHeaderPacket = 1 from rfl,
      Wire.C04_first_roundtrip _ _ (by rw [hP.dhPub_len]; omega)]
  · rw [RB'.out, RB.out]; exact o1

theorem db_open_first {L : Link} {uid : UID} (hL : L.OK P uid)
    (hparse : ∀ h : Header, h.Clean → (P.marshal h).length = 7152 → P.parse (P.marshal h) = some h)
    {all : List Round} {r : Round} (hr : r.OK P uid) {i : Nat} {w : Str}
    (hw : Sent P L all (sessOf all) (rootOf P L (sessOf all)) i r w) (hi : i < (effKeys L.nB).toNat)
    {SA SB : Store} (hS : Begin P L SA SB) (fresh : Bytes) (hf : fresh ≠ []) (hd : Apart P L all r fresh) :
    ∃ B' SB', BothOpen P L fresh w (r.content, L.alice.identity, sigOf P r.sigKey r.content) SB.mem B' SB SB' ∧
      Within P L (sessOf all) ⟨(effKeys L.nB).toNat, [i]⟩ B' ∧ Rep B' SB' := by
  have nB := effKeys_lt hL.nB
  have hSt := hS.start
  refine db_open_sent hP hL hparse hr hw (win := ⟨(effKeys L.nB).toNat, []⟩) fresh
    (fun a ss ha hss hn => ?_) (by simp) hi (show (effKeys L.nB).toNat < _ by omega) (Store.mem_rep hS.b)
  have h8 : (mkHeader (L.encArgs r) r.rnd ss).nextSenderSessionPub = none ∨
      ∃ x, (mkHeader (L.encArgs r) r.rnd ss).nextSenderSessionPub = some (initDHKey P x).public ∧
      AllDifferent [P.dhPub r.rnd.headerPriv, P.dhPub L.bPriv, P.dhPub a.fresh, P.dhPub L.aPriv, P.dhPub x] ∧
      calcKey P (keyHash P L.bPriv) (keyHash P L.aPriv) (keyHash P a.fresh) (keyHash P x) ≠ L.keyB P (sessOf all) := by
    cases hq : ss.nextSenderSessionPub with
    | none => left; simp only [mkHeader, hq, Option.map_none]
    | some q =>
      obtain ⟨r', h1, h2, rfl⟩ := hn q hq
      right
      obtain ⟨h3, h4⟩ := hd.next r' h1 h2
      rw [ha]
      exact ⟨r'.rnd.nextPriv, by simp only [mkHeader, hq, Option.map_some], h3, h4⟩
  exact ⟨cov_decSession_start hP hL a (P.dhPub r.rnd.headerPriv)
          (h := mkHeader (L.encArgs r) r.rnd ss) (s := sessOf all)
          (by simp only [mkHeader, hss.own]) (by simp only [mkHeader, Link.encArgs, hL.a]) hss.hash
          h8 hd.now hSt (by rw [ha]; exact hf) rfl,
    decSession_start hP hL a (P.dhPub r.rnd.headerPriv)
          (h := mkHeader (L.encArgs r) r.rnd ss) (s := sessOf all) rfl
          (by simp only [mkHeader, hss.own]) (by simp only [mkHeader, Link.encArgs, hL.a]) hss.hash
          h8 hd.now hSt⟩

theorem db_open_later {L : Link} {uid : UID} (hL : L.OK P uid)
    (hparse : ∀ h : Header, h.Clean → (P.marshal h).length = 7152 → P.parse (P.marshal h) = some h)
    {all : List Round} {r : Round} (hr : r.OK P uid) {s : Bytes} {i : Nat} {w : Str}
    (hw : Sent P L all s (rootOf P L s) i r w) {B : MemStore} {SB : Store} {win : Window}
    (hin : Within P L s win B) (RB : Rep B SB) (fresh : Bytes)
    (h1 : i ∉ win.opened) (h2 : i < win.keys) (h3 : win.keys < 2 ^ 63) :
    ∃ B' SB', BothOpen P L fresh w (r.content, L.alice.identity, sigOf P r.sigKey r.content) B B' SB SB' ∧
      Within P L s ⟨win.keys, i :: win.opened⟩ B' ∧ Rep B' SB' := by
  refine db_open_sent hP hL hparse hr hw (win := win) fresh (fun a ss _ hss _ => ?_) h1 h2 h3 RB
  obtain ⟨sb, hb, hsb⟩ := hin.state
  obtain ⟨tb, K⟩ := hin.sess
  have hd := decSession_later hP hL a (P.dhPub r.rnd.headerPriv)
    (h := mkHeader (L.encArgs r) r.rnd ss) (s := s) (by simp only [mkHeader, hss.own])
    (by simp only [mkHeader, Link.encArgs, hL.a]) hss.hash
    (by simp only [mkHeader, hss.seen, Option.map_none]) hb hsb K.sess
  obtain ⟨f1, f2⟩ := delPriv_frame B (keyHash P L.kPriv)
  exact ⟨cov_decSession_later hP hL a (P.dhPub r.rnd.headerPriv)
      (h := mkHeader (L.encArgs r) r.rnd ss) (s := s) (by simp only [mkHeader, hss.own])
      (by simp only [mkHeader, Link.encArgs, hL.a]) hss.hash
      (by simp only [mkHeader, hss.seen, Option.map_none]) hb hsb K.sess,
    _, sb, tb, hd, hsb, by rw [f2]; exact hb,
    ⟨by rw [f1]; exact K.sess, K.pos, K.small, K.chain, K.slen, K.rlen, K.low, K.used, K.keys⟩⟩

/-- Attempts that all succeed, with the sessions in memory and with the database. -/
inductive AllOpen (P : Prims) (L : Link) : List (Bytes × Str) → List (Bytes × Str × Str) → MemStore → Store → Prop
  | nil (B : MemStore) (SB : Store) : AllOpen P L [] [] B SB
  | cons {fresh : Bytes} {w : Str} {xs : List (Bytes × Str)} {y : Bytes × Str × Str} {ys : List (Bytes × Str × Str)}
      {B B' : MemStore} {SB SB' : Store} (h : BothOpen P L fresh w y B B' SB SB') (t : AllOpen P L xs ys B' SB') :
      AllOpen P L ((fresh, w) :: xs) (y :: ys) B SB

omit hP in
theorem AllOpen.db {L : Link} {xs : List (Bytes × Str)} {ys : List (Bytes × Str × Str)} {B : MemStore} {SB : Store}
    (h : AllOpen P L xs ys B SB) : dbOpenAll P L xs SB = ys.map some := by
  induction h with
  | nil B SB => rfl
  | cons h t ih => simp only [dbOpenAll, h.db, ih, List.map_cons]

/-- What the recipient is to get for message `i`, which is one of the messages. -/
def handed (P : Prims) (L : Link) (rs : List Round) (i : Nat) : Bytes × Str × Str :=
  match rs[i]? with
  | some r => (r.content, L.alice.identity, sigOf P r.sigKey r.content)
  | none => ([], [], [])

theorem all_open_later {L : Link} {uid : UID} (hL : L.OK P uid)
    (hparse : ∀ h : Header, h.Clean → (P.marshal h).length = 7152 → P.parse (P.marshal h) = some h)
    {rs : List Round} (hrs : ∀ r ∈ rs, r.OK P uid) {ws : List Str}
    (hw : ∀ i r, rs[i]? = some r → Sent P L rs (sessOf rs) (rootOf P L (sessOf rs)) i r (ws.getD i []))
    (arr : List (Nat × Bytes)) (hin : ∀ x ∈ arr, x.1 < rs.length) (win : Window) (B : MemStore) (SB : Store)
    (hB : Within P L (sessOf rs) win B) (RB : Rep B SB) (hnd : (arr.map (·.1)).Nodup)
    (hno : ∀ x ∈ arr, x.1 ∉ win.opened) (hk : ∀ x ∈ arr, x.1 < win.keys) (h63 : win.keys < 2 ^ 63) :
    AllOpen P L (arr.map fun x => (x.2, ws.getD x.1 [])) (arr.map fun x => handed P L rs x.1) B SB := by
  induction arr generalizing win B SB with
  | nil => exact .nil _ _
  | cons x arr ih =>
    obtain ⟨i, f⟩ := x
    have hi : i < rs.length := hin (i, f) (by simp)
    obtain ⟨r, hri⟩ : ∃ r, rs[i]? = some r := ⟨rs[i], List.getElem?_eq_getElem hi⟩
    obtain ⟨B', SB', h1, h2, h3⟩ := db_open_later hP hL hparse (hrs r (List.mem_of_getElem? hri))
      (hw i r hri) hB RB f (hno (i, f) (by simp)) (hk (i, f) (by simp)) h63
    rw [List.map_cons, List.nodup_cons] at hnd
    refine .cons ?_ (ih (fun x hx => hin x (by simp [hx])) _ B' SB' h2 h3 hnd.2 (fun x hx => ?_)
      (fun x hx => hk x (by simp [hx])) h63)
    · simp only [handed, hri]; exact h1
    · simp only [List.mem_cons, not_or]
      refine ⟨?_, hno x (by simp [hx])⟩
      intro e
      exact hnd.1 (by rw [← e]; exact List.mem_map_of_mem (f := (·.1)) hx)

theorem all_open {L : Link} {uid : UID} (hL : L.OK P uid)
    (hparse : ∀ h : Header, h.Clean → (P.marshal h).length = 7152 → P.parse (P.marshal h) = some h)
    {rs : List Round} (hrs : ∀ r ∈ rs, r.OK P uid) {ws : List Str}
    (hw : ∀ i r, rs[i]? = some r → Sent P L rs (sessOf rs) (rootOf P L (sessOf rs)) i r (ws.getD i []))
    {SA SB : Store} (hS : Begin P L SA SB)
    (arr : List (Nat × Bytes)) (hin : ∀ x ∈ arr, x.1 < rs.length) (hnd : (arr.map (·.1)).Nodup)
    (hk : ∀ x ∈ arr, x.1 < (effKeys L.nB).toNat)
    (hfirst : ∀ x ∈ arr.head?, x.2 ≠ [] ∧ ∀ r ∈ rs[x.1]?, Apart P L rs r x.2) :
    AllOpen P L (arr.map fun x => (x.2, ws.getD x.1 [])) (arr.map fun x => handed P L rs x.1) SB.mem SB := by
  have nB := effKeys_lt hL.nB
  cases arr with
  | nil => exact .nil _ _
  | cons x arr =>
    obtain ⟨i, f⟩ := x
    have hi : i < rs.length := hin (i, f) (by simp)
    obtain ⟨r, hri⟩ : ∃ r, rs[i]? = some r := ⟨rs[i], List.getElem?_eq_getElem hi⟩
    obtain ⟨f1, f2⟩ := hfirst (i, f) (by simp)
    obtain ⟨B', SB', h1, h2, h3⟩ := db_open_first hP hL hparse (hrs r (List.mem_of_getElem? hri))
      (hw i r hri) (hk (i, f) (by simp)) hS f f1 (f2 r (by simpa using hri))
    rw [List.map_cons, List.nodup_cons] at hnd
    refine .cons ?_ (all_open_later hP hL hparse hrs hw arr (fun x hx => hin x (by simp [hx])) _ B' SB' h2 h3 hnd.2
      (fun x hx => ?_) (fun x hx => hk x (by simp [hx])) (show (effKeys L.nB).toNat < _ by omega))
    · simp only [handed, hri]; exact h1
    · simp only [List.mem_singleton]
      intro e
      exact hnd.1 (by rw [← e]; exact List.mem_map_of_mem (f := (·.1)) hx)

/-- C144: two users with new key databases who never communicated. One of them sends the other a
batch of messages, not more than the sender makes keys for at once, in one run of `mutecrypt
encrypt` for each. The runs succeed. The encoded messages arrive in any order and each is opened by
a run of `mutecrypt decrypt` of its own, with the key database. Then each run gives exactly the
content that was sent, with the sender and the signature; some of the messages may be missing.
Partial: only the messages of the first batch of the recipient's keys; what comes after it is lost
(C141), and so nothing is said about later ones and about a message that comes twice. -/
theorem C144_any_order_partial (L : Link) (uid : UID) (hL : L.OK P uid)
    (hparse : ∀ h : Header, h.Clean → (P.marshal h).length = 7152 → P.parse (P.marshal h) = some h)
    (rs : List Round) (hrs : ∀ r ∈ rs, r.OK P uid) (hfit : ∀ r ∈ rs, r.Fits P L)
    (hd : FirstDifferent P L rs) (hx : Drawn P rs) (hkA : rs.length ≤ (effKeys L.nA).toNat)
    (SA SB : Store) (hS : Begin P L SA SB) :
    ∃ ws SA', dbSendAll P L rs SA = some (ws, SA') ∧ ws.length = rs.length ∧
      ∀ (arr : List (Nat × Bytes)), (∀ x ∈ arr, x.1 < rs.length ∧ x.1 < (effKeys L.nB).toNat) →
        (arr.map (·.1)).Nodup →
        (∀ x ∈ arr.head?, x.2 ≠ [] ∧ ∀ r ∈ rs[x.1]?, Apart P L rs r x.2) →
        dbOpenAll P L (arr.map fun x => (x.2, ws.getD x.1 [])) SB =
          arr.map fun x => delivery P L rs x.1 := by
  have nA := effKeys_lt hL.nA
  obtain ⟨ws, A', h⟩ := sendAll_succeeds hP hL rs hrs hfit hd (by omega) SA.mem SB.mem hS.start
  obtain ⟨SA', h'⟩ := (dbSend_sent hP hL rs hrs hd hx hkA SA SB hS A' ws h).all
  obtain ⟨hl, hw⟩ := sendAll_sent hP hL rs hrs hd (by omega) SA.mem SB.mem A' hS.start ws h
  refine ⟨ws, SA', h', hl, fun arr hin hnd hfirst => ?_⟩
  rw [(all_open hP hL hparse hrs hw hS arr (fun x hx => (hin x hx).1) hnd (fun x hx => (hin x hx).2) hfirst).db,
    List.map_map]
  refine List.map_congr_left fun x hx => ?_
  obtain ⟨r, hr⟩ : ∃ r, rs[x.1]? = some r := ⟨rs[x.1]'(hin x hx).1, List.getElem?_eq_getElem (hin x hx).1⟩
  simp only [Function.comp_apply, handed, delivery, hr, Option.map_some]

end

/-! ### A case that meets the hypotheses -/

/-- Two messages are sent with the key database and opened newest first. The second one announces
the sender's next session, so that the recipient stores two sessions. -/
example : ∃ ws SA', dbSendAll Toy.PE Toy.linkE toyRounds toyA = some (ws, SA') ∧
    dbOpenAll Toy.PE Toy.linkE [([40, 2], ws.getD 1 []), ([41], ws.getD 0 [])] toyB =
      [some ([], Toy.aliceE.identity, sigOf Toy.PE (some Toy.sigPub) []),
        some ([104, 105], Toy.aliceE.identity, sigOf Toy.PE (some Toy.sigPub) [104, 105])] := by
  obtain ⟨ws, SA', h1, -, h2⟩ := C144_any_order_partial Toy.PE_good Toy.linkE _ Toy.linkE_ok Toy.emarshal_parse
    toyRounds
    (by intro r hr
        simp only [toyRounds, List.mem_cons, List.not_mem_nil, or_false] at hr
        rcases hr with rfl | rfl <;> exact Toy.roundE_ok _ _ _)
    (by intro r hr
        simp only [toyRounds, List.mem_cons, List.not_mem_nil, or_false] at hr
        rcases hr with rfl | rfl <;> exact Toy.roundE_fits _ _ (by simp) _)
    (by intro r hr
        obtain rfl : Toy.roundE 1 [104, 105] true = r := Option.some.inj hr
        decide +kernel)
    toy_drawn (by decide) toyA toyB toy_begin
  refine ⟨ws, SA', h1, h2 [(1, [40, 2]), (0, [41])] ?_ (show [1, 0].Nodup by decide) ?_⟩
  · intro x hx
    simp only [List.mem_cons, List.not_mem_nil, or_false] at hx
    rcases hx with rfl | rfl <;> decide
  · intro x hx
    obtain rfl := Option.some.inj hx
    refine ⟨by decide, fun r hr => ?_⟩
    obtain rfl : Toy.roundE 2 [] true = r := Option.some.inj hr
    refine ⟨?_, fun r' hr' hn => ?_⟩
    · decide +kernel
    · simp only [toyRounds, List.mem_cons, List.not_mem_nil, or_false] at hr'
      rcases hr' with rfl | rfl <;> exact ⟨by decide +kernel, by decide +kernel⟩

end Verif.Keydb

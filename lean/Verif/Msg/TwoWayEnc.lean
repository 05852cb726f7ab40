import Verif.Msg.TwoWayParty
/-
Sending a message in a two-way conversation (for C145).
-/
set_option autoImplicit false
namespace Verif.Msg
open Prog
open Wire (Outer newOuter newPre readFirst)
namespace Two

/-- The header of message `i` of a session, naming the next keys `nx` (own) and `sn` (seen). -/
structure Hdr (P : Prims) (L : Link) (s : Sn) (i : Nat) (nx sn : Option Bytes) (h : Header) : Prop where
  len : (P.marshal h).length = 7152
  clean : h.Clean
  ident : h.senderIdentity = L.alice.identity
  uid : h.senderUID = L.alice.json
  sess : h.senderSessionPub = (initDHKey P s.a).public
  idp : h.senderIdentityPub = (initDHKey P L.aPriv).public
  temp : h.recipientTempHash = keyHash P s.b
  count : h.senderMessageCount = UInt64.ofNat i
  next : h.nextSenderSessionPub = nx.map fun x => (initDHKey P x).public
  seen : h.nextRecipientSessionPubSeen = sn.map fun x => (initDHKey P x).public

/-- The encoded message. -/
def wireOf (P : Prims) (L : Link) (r : Round) (h : Header) (s : Sn) (i : Nat) : Str :=
  P.b64 (messageBytes P r.rnd h (P.dhPub L.bPriv) (senderKey P s.root (P.dhPub s.b) (L.fix P) i)
    r.sigKey r.content)

/-- What Encrypt requires of a message and its sender; the header of every session state that can
occur in the conversation has the prescribed JSON length. -/
structure Fits (P : Prims) (L : Link) (r : Round) : Prop where
  lastHash : r.lastHash.length = 204
  identity : L.alice.identity.length ≤ 254
  nym : r.nymAddress.length ≤ 1568
  json : L.alice.json.length ≤ 2004
  content : r.content.length ≤ 41691
  header : ∀ s v ss, TState P s v ss → (P.marshal (mkHeader (L.encArgs r) r.rnd ss)).length = 7152

section
variable {P : Prims} (hP : P.Good)
include hP

theorem Hdr.verify {L : Link} {s : Sn} {i : Nat} {nx sn : Option Bytes} {h : Header}
    (H : Hdr P L s i nx sn h) : h.verify P = true := by
  simp only [Header.verify, H.sess, H.idp, H.next, H.seen, initDHKey_public_verify P hP, Bool.true_and]
  cases nx <;> cases sn <;>
    simp only [Option.map_none, Option.map_some, Option.all_none, Option.all_some, Bool.true_and,
      Bool.and_true, initDHKey_public_verify P hP]

/-- Encrypt, once the session is there. -/
theorem enc_body {L : Link} {uid : UID} (hL : L.OK P uid) {K : List Bytes} (hK : Keys P L K)
    {r : Round} (hr : r.OK P uid) (hf : Fits P L r) {G : List Sn} {v : View} {A A1 : MemStore}
    (I : PInv P L K G v A1) {s : Sn} (hs : G[v.cur]? = some s) (hk : v.sent v.cur < 2 ^ 62)
    {ss : State} {nym : Str} (hss : A1.states (L.stateKeyA P) = some ss)
    (hA : (encSession P (L.encArgs r) r.rnd (effKeys L.nA) (L.stateKeyA P)).run
        (MemStore.handle P) A = (.ok (ss, nym), A1)) :
    ∃ A' h, (encrypt P (L.encArgs r) r.rnd).run (MemStore.handle P) A = (.ok nym, A') ∧
      Hdr P L s (v.sent v.cur) v.nx v.sn h ∧ A'.out = A.out ++ wireOf P L r h s (v.sent v.cur) ∧
      PInv P L K G { v with sent := fset v.sent v.cur (v.sent v.cur + 1) } A' := by
  have hst : TState P s v ss := by
    obtain ⟨ss', s', h1, h2, h3⟩ := I.state
    rw [hss] at h2; cases h2
    rw [hs] at h1; cases h1
    exact h3
  have hroot := I.rlen s (List.mem_of_getElem? hs)
  obtain ⟨m, t, J⟩ := I.sess v.cur s I.curlt hs
  have e1 : (L.encArgs r).from.pubKey.pub32 P = some (P.dhPub L.aPriv) := by
    rw [show (L.encArgs r).from.pubKey = initDHKey P L.aPriv from hL.a]
    exact initDHKey_pub32 P hP _
  have eto : (L.encArgs r).to.pubKey = (initDHKey P L.bPriv).public := by
    simp only [Link.encArgs, hL.b]
  have e2 : (L.encArgs r).to.pubKey.pub32 P = some (P.dhPub L.bPriv) := by
    rw [eto]; exact initDHKey_public_pub32 P hP _
  have e3 : uidPublicKey P (L.encArgs r).to = .ret (P.dhPub L.bPriv) := by
    unfold uidPublicKey
    rw [eto]
    simp [initDHKey, KeyEntry.public, hP.unb64_b64, hP.dhPub_len]
  have hkeyA : encSessionKey P (L.encArgs r) ss = L.skey P s.a s.b := by
    simp only [encSessionKey, Link.encArgs, hL.a, hL.b, hst.own, hst.peer]; rfl
  obtain ⟨m', A2, t', f1, f2, F, I2⟩ := SInv.encExtend hP (a := L.encArgs r) (effKeys_ne L.nA)
    (effKeys_lt hL.nA) (ss := ss) (root := s.root) (sp := P.dhPub s.a) (rp := P.dhPub s.b) hroot
    (by rw [hst.own]; exact initDHKey_pub32 P hP _)
    (by rw [hst.peer]; exact initDHKey_public_pub32 P hP _) (by rw [hst.own]; rfl)
    (by rw [hst.peer]; rfl) hk hst.count (by rw [hkeyA]; exact J)
  rw [hkeyA] at f1 I2 F
  have hmk := I2.sendKey hP f2 (by omega)
  have hmar := hf.header s v ss hst
  have hhp : headerPacket P (mkHeader (L.encArgs r) r.rnd ss) (P.dhPub L.bPriv) r.rnd.headerPriv
      r.rnd.nonce = .ret (r.rnd.nonce ++ be16 7168 ++ P.boxSeal (P.marshal (mkHeader (L.encArgs r)
        r.rnd ss)) r.rnd.nonce (P.dhPub L.bPriv) r.rnd.headerPriv) := by
    unfold headerPacket
    simp only [hP.box_len, hmar]
    rfl
  generalize hw : wireOf P L r (mkHeader (L.encArgs r) r.rnd ss) s (v.sent v.cur) = w
  obtain ⟨t3, hdel, I3⟩ := (I2.moved (st' := A2.wrote w) rfl).delSend f2 (by omega)
  have F3 : Frame (L.skey P s.a s.b) A1 ((A2.wrote w).setSess (L.skey P s.a s.b) t3) :=
    (F.trans (Frame.wrote _ _ _)).trans (Frame.setSess _ _ _)
  refine ⟨((A2.wrote w).setSess (L.skey P s.a s.b) t3).setState (L.stateKeyA P)
    { ss with senderMessageCount := ss.senderMessageCount + 1 }, mkHeader (L.encArgs r) r.rnd ss, ?_,
    ?_, ?_, I.sentOne hK hs F3 hss ⟨m', t3, I3⟩⟩
  · unfold encrypt
    simp only [bind_eq, e1, e2, orPanic, ret_bind]
    rw [show calcStateKey P (P.dhPub L.aPriv) (P.dhPub L.bPriv) = L.stateKeyA P from rfl,
      show (if (L.encArgs r).numOfKeys = 0 then numOfFutureKeys else (L.encArgs r).numOfKeys) =
        effKeys L.nA from rfl]
    rw [run_bind_of_ok _ hA]
    simp only
    rw [run_bind_of_ok _ (newHeader_run (by exact hf.lastHash) (by exact hf.identity)
      (by exact hf.nym) (by exact hf.json))]
    rw [e3, ret_bind, hhp, ret_bind]
    rw [show calcKey P (L.encArgs r).from.pubKey.hash (L.encArgs r).to.pubKey.hash
      ss.senderSessionPub.hash ss.recipientTemp.hash = L.skey P s.a s.b from hkeyA]
    rw [run_bind_of_ok _ f1]
    rw [run_bind_of_ok (a := senderKey P s.root (P.dhPub s.b) (L.fix P) (v.sent v.cur)) (s1 := A2) _
      (by rw [run_ask_ok, hst.count]; simp only [MemStore.handle]; exact congrArg (·, A2) hmk)]
    rw [show (L.encArgs r).status = statusOK from rfl, if_pos rfl]
    have hc : (L.encArgs r).content.length ≤ maxContentLength := hf.content
    simp only [failIf]
    rw [if_neg (by simpa using hc), ret_bind, if_neg, ret_bind]
    · refine (run_bind_of_ok (a := ()) (s1 := A2.wrote w) _ (by rw [← hw]; rfl)).trans ?_
      refine (run_bind_of_ok (a := ()) (s1 := (A2.wrote w).setSess (L.skey P s.a s.b) t3) _
        (by rw [run_ask_ok, hst.count]; exact hdel)).trans ?_
      rw [run_bind_of_ok (a := ()) _ (by rw [run_ask_ok]; rfl)]
      rfl
    · simp only [ne_eq, decide_not, Bool.not_eq_true', decide_eq_false_iff_not, Decidable.not_not]
      rw [hP.b64_len]
      simp only [List.length_append, pre_length P hP, encBody_length P hP _ r.rnd hr.rnd _ _ hc]
      simp only [outer_length, List.length_append, newOuter, hr.rnd.nonce_len, Wire.be16_length,
        hP.box_len, hmar, encodedMsgSize]
  · refine ⟨hmar, mkHeader_clean _ _ _, rfl, rfl, ?_, ?_, ?_, hst.count, ?_, ?_⟩
    · simp only [mkHeader, hst.own]
    · simp only [mkHeader, Link.encArgs, hL.a]
    · simp only [mkHeader, hst.peer]; rfl
    · simp only [mkHeader, hst.next, Option.map_map]; rfl
    · simp only [mkHeader, hst.seen, Option.map_map]; rfl
  · have oA1 : A1.out = A.out := by
      have := run_out P (quiet_noWrite (quiet_encSession P (L.encArgs r) r.rnd (effKeys L.nA)
        (L.stateKeyA P))) A
      rw [hA] at this; exact this
    have oA2 : A2.out = A1.out := by
      have := run_out P (quiet_noWrite (quiet_encExtend P (L.encArgs r) (effKeys L.nA) ss
        (L.skey P s.a s.b))) A1
      rw [f1] at this; exact this
    show A2.out ++ w = _
    rw [oA2, oA1, hw]

/-- The next own key after a message was sent. -/
def View.drawn (v : View) (r : Round) : Option Bytes :=
  if v.nx.isNone && r.rnd.newSession then some r.rnd.nextPriv else v.nx

/-- Sending a message in a session. -/
theorem enc_next {L : Link} {uid : UID} (hL : L.OK P uid) {K : List Bytes} (hK : Keys P L K)
    {r : Round} (hr : r.OK P uid) (hf : Fits P L r) {G : List Sn} {v : View} {A : MemStore}
    (I : PInv P L K G v A) {s : Sn} (hs : G[v.cur]? = some s) (hk : v.sent v.cur < 2 ^ 62)
    (hn : r.rnd.nextPriv ∈ K) (hex : r.rnd.nextPriv ∉ v.ex) (hnew : ∀ s ∈ G, s.a ≠ r.rnd.nextPriv) :
    ∃ A' h nym, (encrypt P (L.encArgs r) r.rnd).run (MemStore.handle P) A = (.ok nym, A') ∧
      Hdr P L s (v.sent v.cur) (v.drawn r) v.sn h ∧
      A'.out = A.out ++ wireOf P L r h s (v.sent v.cur) ∧
      PInv P L K G { v with nx := v.drawn r, sent := fset v.sent v.cur (v.sent v.cur + 1) } A' := by
  obtain ⟨ss, s0, h1, h2, h3⟩ := I.state
  have hdraw : ss.nextSenderSessionPub.isNone = v.nx.isNone := by rw [h3.next]; cases v.nx <;> rfl
  have hsess : ∃ ss' nym A1, (encSession P (L.encArgs r) r.rnd (effKeys L.nA) (L.stateKeyA P)).run
        (MemStore.handle P) A = (.ok (ss', nym), A1) ∧ A1.states (L.stateKeyA P) = some ss' ∧
        PInv P L K G { v with nx := v.drawn r } A1 := by
    unfold encSession
    simp only [bind_eq]
    rw [if_pos (by show statusOK ≠ _; decide)]
    rw [run_bind_of_ok (a := some ss) (s1 := A) _ (by
      rw [run_ask_ok]; simp only [MemStore.handle, h2])]
    simp only
    rw [if_pos (by show statusOK ≠ _; decide), hdraw]
    unfold View.drawn
    split
    · rename_i hc
      simp only [setNextSenderSessionPub, addSessionKey, bind_eq, initDHKey_priv32, orPanic, ret_bind]
      let ss' : State := { ss with nextSenderSessionPub := some (initDHKey P r.rnd.nextPriv) }
      refine ⟨ss', ss.nymAddress, (MemStore.handle P (.setState (L.stateKeyA P) ss')
        (MemStore.handle P (.addSKey (initDHKey P r.rnd.nextPriv).hash
          (initDHKey P r.rnd.nextPriv).public (P.b64 r.rnd.nextPriv)) A).2).2, ?_, upd_same _ _ _, ?_⟩
      · rw [run_bind_of_ok (a := (ss', initDHKey P r.rnd.nextPriv)) (s1 := (MemStore.handle P
          (.setState (L.stateKeyA P) ss')
          (MemStore.handle P (.addSKey (initDHKey P r.rnd.nextPriv).hash
            (initDHKey P r.rnd.nextPriv).public (P.b64 r.rnd.nextPriv)) A).2).2)]
        · rfl
        · rw [run_bind_of_ok (a := ()) _ (by rw [run_ask_ok]; rfl)]
          rw [run_bind_of_ok (a := ()) _ (by rw [run_ask_ok]; rfl)]
          rfl
      · have hnx : v.nx = none := by
          rw [Bool.and_eq_true] at hc
          cases h : v.nx with
          | none => rfl
          | some y => rw [h] at hc; cases hc.1
        exact I.draw hP hK hnx hn hex hnew h2
    · exact ⟨ss, _, A, rfl, h2, I⟩
  obtain ⟨ss', nym, A1, g1, g2, g3⟩ := hsess
  obtain ⟨A', h, k1, k2, k3, k4⟩ := enc_body hP hL hK hr hf g3 (s := s) hs hk g2 g1
  exact ⟨A', h, nym, k1, k2, k3, k4⟩

/-- The sessions before the first message. -/
def firstSn (P : Prims) (L : Link) (s : Bytes) : Sn :=
  ⟨s, L.kPriv, deriveRootKey P (P.dh L.aPriv (P.dhPub L.kPriv)) (P.dh s (P.dhPub L.kPriv))
    (P.dh s (P.dhPub L.bPriv)) none, true⟩

/-- A party that has stored the first session. -/
def view0 (base : Str → Option Sess) (ex : List Bytes) (ki : Bool) : View :=
  ⟨0, 1, none, none, fun _ => 0, fun _ => [], base, ex, ki⟩

/-- Sending the first message. -/
theorem enc_first {L : Link} {uid : UID} (hL : L.OK P uid) {K : List Bytes} (hK : Keys P L K)
    {r : Round} (hr : r.OK P uid) (hf : Fits P L r) {A : MemStore} {ex : List Bytes}
    (hst : A.states (L.stateKeyA P) = none)
    (hse : ∀ y ∈ K, y ∉ ex → ∀ x ∈ K, A.sessions (L.skey P y x) = none)
    (hpub : A.pubs L.bob.identity = some (initDHKey P L.kPriv).public)
    (hpr : ∀ x ∈ K, ∀ ke, A.privs (keyHash P x) = some ke → ke = initDHKey P x)
    (hsk : ∀ x ∈ K, x ∉ ex → ∀ ke p, A.skeys (keyHash P x) = some (ke, p) → p = [])
    (hk : L.kPriv ∈ K) (hsK : r.rnd.sessPriv ∈ K) (hex : r.rnd.sessPriv ∉ ex)
    (hd : AllDifferent [P.dhPub r.rnd.headerPriv, P.dhPub L.aPriv, P.dhPub r.rnd.sessPriv,
      P.dhPub L.bPriv, P.dhPub L.kPriv]) :
    ∃ A' h nym, (encrypt P (L.encArgs r) r.rnd).run (MemStore.handle P) A = (.ok nym, A') ∧
      Hdr P L (firstSn P L r.rnd.sessPriv) 0 none none h ∧
      A'.out = A.out ++ wireOf P L r h (firstSn P L r.rnd.sessPriv) 0 ∧
      PInv P L K [firstSn P L r.rnd.sessPriv] { view0 A.sessions ex true with sent := fset (fun _ => 0) 0 1 } A' := by
  obtain ⟨t, ft, rt⟩ := run_generate_new P L.alice.identity L.bob.identity
    (initDHKey P L.aPriv).hash (initDHKey P L.bPriv).public.hash
    (firstSn P L r.rnd.sessPriv).root false (P.dhPub r.rnd.sessPriv)
      (P.dhPub L.kPriv) (effKeys L.nA) (effKeys_ne _)
      (MemStore.handle P (.addSKey (initDHKey P r.rnd.sessPriv).hash
        (initDHKey P r.rnd.sessPriv).public (P.b64 r.rnd.sessPriv)) A).2 (hse _ hsK hex _ hk)
  rw [show genKey P (initDHKey P L.aPriv).hash (initDHKey P L.bPriv).public.hash false
    (P.dhPub r.rnd.sessPriv) (P.dhPub L.kPriv) = L.skey P r.rnd.sessPriv L.kPriv from rfl] at rt
  let ss : State := ⟨0, 0, 0, (initDHKey P L.kPriv).public, initDHKey P r.rnd.sessPriv, none, none,
    A.nyms L.bob.identity, true⟩
  let A1 := ((MemStore.handle P (.addSKey (initDHKey P r.rnd.sessPriv).hash
        (initDHKey P r.rnd.sessPriv).public (P.b64 r.rnd.sessPriv)) A).2.setSess
        (L.skey P r.rnd.sessPriv L.kPriv) t).setState (L.stateKeyA P) ss
  have hrun : (encSession P (L.encArgs r) r.rnd (effKeys L.nA) (L.stateKeyA P)).run
        (MemStore.handle P) A = (.ok (ss, A.nyms L.bob.identity), A1) := by
    unfold encSession
    simp only [bind_eq]
    rw [if_pos (by show statusOK ≠ _; decide)]
    rw [run_bind_of_ok (a := none) (s1 := A) _ (by
      rw [run_ask_ok]; simp only [MemStore.handle, hst])]
    simp only
    rw [run_bind_of_ok (a := ((initDHKey P L.kPriv).public, A.nyms L.bob.identity)) (s1 := A) _ (by
      rw [run_ask_ok]; simp only [MemStore.handle, MemStore.getPublicKeyEntry, Link.encArgs, hpub])]
    simp only [addSessionKey, bind_eq, initDHKey_priv32, orPanic, ret_bind]
    rw [run_bind_of_ok (a := ()) _ (by rw [run_ask_ok]; rfl)]
    simp only [Link.encArgs, hL.a, hL.b]
    rw [rkaSender_eq P hP _ _ _ r.rnd.sessPriv L.aPriv L.kPriv L.bPriv _ _
      (initDHKey_public_pub32 P hP _) (initDHKey_public_pub32 P hP _) none _ hd]
    refine (run_bind_of_ok _ rt).trans ?_
    rw [run_bind_of_ok (a := ()) _ (by rw [run_ask_ok]; rfl)]
    rfl
  have one : ∀ (j : Nat) (s : Sn), [firstSn P L r.rnd.sessPriv][j]? = some s →
      j = 0 ∧ s = firstSn P L r.rnd.sessPriv := by
    intro j s h
    cases j with
    | zero => exact ⟨rfl, (Option.some.inj h).symm⟩
    | succ j => cases h
  have I : PInv P L K [firstSn P L r.rnd.sessPriv] (view0 A.sessions ex true) A1 := by
    refine ⟨⟨rfl, Nat.le_refl _, ⟨ss, _, rfl, upd_same _ _ _, ⟨rfl, rfl, rfl, rfl, rfl, rfl⟩⟩, ?_, ?_, ?_, ?_, ?_,
      hpr, ?_, ?_, ?_, ?_, ?_, fun _ _ => rfl, fun _ _ => rfl, fun y hy => (nomatch hy), ?_, hse⟩, ?_⟩
    · intro j s _ h
      obtain ⟨rfl, rfl⟩ := one j s h
      exact ⟨_, t, sinv_new (effKeys_ne _) (effKeys_lt hL.nA) (upd_same _ _ _) ft⟩
    · intro s h
      rw [List.mem_singleton] at h; subst h
      exact deriveRootKey_len P hP _ _ _ _
    · intro key h
      exact upd_other _ _ (h 0 _ Nat.zero_lt_one rfl)
    · intro j s _ h
      obtain ⟨rfl, rfl⟩ := one j s h
      exact own_of_skey hP hsK (hK.len _ hsK) hpr (p := P.b64 r.rnd.sessPriv) (upd_same _ _ _) (.inr rfl)
    · intro y hy; cases hy
    · intro s h
      rw [List.mem_singleton] at h; subst h
      exact ⟨hsK, hk⟩
    · intro j j' s s' h h' _
      rw [(one j s h).1, (one j' s' h').1]
    · intro y hy; cases hy
    · intro y hy; cases hy
    · intro j s s' _ h'
      exact absurd (one _ _ h').1 (by omega)
    · intro s h
      rw [List.mem_singleton] at h; subst h
      exact hex
    · intro x hx he ke p hs hp
      refine .inr ⟨rfl, _, rfl, ?_⟩
      by_cases e : keyHash P x = keyHash P r.rnd.sessPriv
      · exact (hK.inj _ hx _ hsK e).symm
      · have hs : upd A.skeys (keyHash P r.rnd.sessPriv) _ (keyHash P x) = some (ke, p) := hs
        rw [upd_other _ _ e] at hs
        exact absurd (hsk x hx he ke p hs) hp
  obtain ⟨A', h, k1, k2, k3, k4⟩ := enc_body hP hL hK hr hf I (s := firstSn P L r.rnd.sessPriv) rfl
    (by show 0 < 2 ^ 62; omega) (upd_same _ _ _) hrun
  exact ⟨A', h, _, k1, k2, k3, k4⟩

end
end Two
end Verif.Msg

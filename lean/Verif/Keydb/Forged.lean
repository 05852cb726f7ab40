import Verif.Keydb.Reset
import Verif.Keydb.AnyOrder
import Verif.Msg.Forged
/-
C151 with the key database.
-/
set_option autoImplicit false
namespace Verif.Keydb
open Verif.Msg Verif.Sql Prog
open Wire (newOuter newPre readFirst)

section
variable (P : Prims)

/-- C151, what holds, with the key database: as soon as the database has a session state with the sender
that was answered, a message of any session that is not in the database, forged or not, leaves the table of
session states as it was. -/
theorem C151_established_db_partial {a : DecArgs} {hp : Bytes} {u : UID} {h : Header} {r : Bytes}
    (hd : (decHead P a).out = .ok (hp, u, h, r))
    {rp sp : Bytes} (hrp : u.pubKey.pub32 P = some rp) (hsp : h.senderIdentityPub.pub32 P = some sp)
    {st : Store} {s : State} (hst : getState st.db (calcStateKey P rp sp) = .ok (some s))
    (hs : s.keyInitSession = false)
    (hnew : hasSession st.db (decSessionKey P u h) = false) :
    ((decrypt P a).run (Store.handle P) st).2.db.states = st.db.states := by
  have hs : (s.keyInitSession && decide (h.senderIdentity < u.identity)) = false := by simp [hs]
  unfold decrypt
  simp only [bind_eq]
  rw [run_bind_of_ok (a := (hp, u, h, r)) (s1 := st) _ (by rw [(noCall_decHead P a).run, hd])]
  simp only
  rw [run_bind, db_decSession P a _ hp u h st hrp hsp hst hnew, ← run_bind]
  refine noset_states P ?_ st
  refine NoSet.bind (noset_decUnknown P _ _ _ _ _ _ _ hs) fun ss =>
    NoSet.bind (noset_decExtend P _ _ _ _ _) fun _ => NoSet.bind (NoSet.ask (fun h => h)) fun mk =>
      NoSet.bind (noset_decBody P _ _ _) fun _ => NoSet.bind (NoSet.ask (fun h => h)) fun _ => ?_
  noset

/-- The state after the first message of a session. -/
theorem decUnknown_state {a : DecArgs} {n : UInt64} {hp : Bytes} {u : UID} {h : Header} {k sk : Str}
    {st st' : MemStore} {sb : State}
    (hrun : (decUnknown P a n hp u h k sk none).run (MemStore.handle P) st = (.ok (some sb), st')) :
    sb.recipientTemp = h.senderSessionPub ∧ sb.keyInitSession = false := by
  unfold decUnknown at hrun
  simp only [bind_eq, run_bind_ok] at hrun
  obtain ⟨r, s1, -, hrun⟩ := hrun
  cases r with
  | error e => cases e <;> cases hrun
  | ok ki =>
    simp only [if_true, run_bind_ok] at hrun
    obtain ⟨_, s2, -, _, s3, -, hrun⟩ := hrun
    split at hrun
    · simp only [run_bind_ok] at hrun
      obtain ⟨_, s4, -, _, s5, -, _, s6, -, hrun⟩ := hrun
      simp only [run_ret, Prod.mk.injEq, Res.ok.injEq, Option.some.injEq] at hrun
      rw [← hrun.1]
      exact ⟨rfl, rfl⟩
    · simp only [run_bind_ok] at hrun
      obtain ⟨_, s4, -, _, s5, -, hrun⟩ := hrun
      simp only [run_ret, Prod.mk.injEq, Res.ok.injEq, Option.some.injEq] at hrun
      rw [← hrun.1]
      exact ⟨rfl, rfl⟩

/-- What follows the session handling when there is no body. -/
def noBody (n : UInt64) (u : UID) (h : Header) (key : Str) (ss : Option State) : Prog (Str × Str) :=
  (decExtend P n u h key ss).bind fun _ =>
  (Prog.ask (.getMsgKey key false h.senderMessageCount)).bind fun mk =>
  (decBody P mk h.senderUID []).bind fun sig =>
  (Prog.ask (.delMsgKey key false h.senderMessageCount)).bind fun _ =>
  Prog.ret (h.senderIdentity, sig)

/-- It does not succeed, and the session states stay. -/
theorem db_nobody (n : UInt64) (u : UID) (h : Header) (key : Str) (ss : Option State) (st : Store) :
    ∃ x st', (noBody P n u h key ss).run (Store.handle P) st = (x, st') ∧ (∀ y, x ≠ .ok y) ∧
      st'.db.states = st.db.states := by
  have hn : NoSet (noBody P n u h key ss) := by
    unfold noBody
    refine NoSet.bind (noset_decExtend P _ _ _ _ _) fun _ => NoSet.bind (NoSet.ask (fun h => h)) fun mk =>
      NoSet.bind (noset_decBody P _ _ _) fun _ => NoSet.bind (NoSet.ask (fun h => h)) fun _ => ?_
    noset
  have hs := noset_states P hn st
  cases e : (noBody P n u h key ss).run (Store.handle P) st with
  | mk x st' =>
    rw [e] at hs
    refine ⟨x, st', rfl, ?_, hs⟩
    rintro y rfl
    unfold noBody at e
    simp only [run_bind_ok] at e
    obtain ⟨_, s1, -, mk, s2, -, sig, s3, h3, -⟩ := e
    cases h3

/-- C151. DISAGREES WITH THE CODE, with the key database. Somebody who knows only public keys of the two
users makes a message that names the first as its sender. The run of `mutecrypt decrypt` of the second user
refuses it. Nevertheless the database then has a session state with the first user in which messages are
encrypted to the forger's session key, and a message of any other session that names the first user leaves it
there. -/
theorem C151_forged_db_violated (hP : P.Good) {L : Link} {uid : UID} (hL : L.OK P uid) (f : Forger)
    (fresh : Bytes) {A B : MemStore} {SB : Store} (hS : L.Start P A B) (hrep : Rep B SB)
    (hparse : ∀ h : Header, h.Clean → (P.marshal h).length = 7152 → P.parse (P.marshal h) = some h)
    (hnonce : f.nonce.length = 24)
    (hlen : (P.marshal (forgedHeader P L.alice L.bob (initDHKey P L.kPriv).public f)).length = 7152)
    (hdiff : AllDifferent [P.dhPub f.head, P.dhPub L.aPriv, P.dhPub f.sess, P.dhPub L.bPriv, P.dhPub L.kPriv])
    (hx : fresh ≠ []) (hfr : B.skeys (keyHash P fresh) = none) :
    ∃ SB' s, dbTry P L fresh (forgery P L.alice L.bob (P.dhPub L.bPriv) (initDHKey P L.kPriv).public f) SB =
        (none, SB') ∧
      getState SB'.db (L.stateKeyB P) = .ok (some s) ∧ s.recipientTemp = (initDHKey P f.sess).public ∧
      ∀ a hp h r, (decHead P a).out = .ok (hp, L.bob, h, r) →
        h.senderIdentityPub = (initDHKey P L.aPriv).public →
        hasSession SB'.db (decSessionKey P L.bob h) = false →
        ((decrypt P a).run (Store.handle P) SB'.connect).2.db.states = SB'.db.states := by
  have H := forged_hdr f hL hlen
  generalize hh : forgedHeader P L.alice L.bob (initDHKey P L.kPriv).public f = h at H
  have hpar := hparse h H.clean H.len
  let rnd : Rnd := ⟨f.head, [], [], f.nonce, List.replicate 16 0, false, fun n => List.replicate n 0,
    fun n => List.replicate n 0⟩
  have hg : rnd.Good := ⟨hnonce, by simp [rnd], by simp [rnd], by simp [rnd]⟩
  let a : DecArgs := ⟨[L.bob], (newPre (P.dhPub rnd.headerPriv)).write,
        (newOuter Wire.encryptedHeader 1 (rnd.nonce ++ be16 7168 ++
          P.boxSeal (P.marshal h) rnd.nonce (P.dhPub L.bPriv) rnd.headerPriv)).write true ++ [],
        L.nB, fresh⟩
  have h3 : h.senderSessionPub = (initDHKey P f.sess).public := H.sess
  have h5 : h.recipientTempHash = keyHash P L.kPriv := H.temp
  have h8 : h.nextSenderSessionPub = none := by rw [← hh]; rfl
  have hhead : (decHead P a).out = .ok (P.dhPub f.head, L.bob, h, []) :=
    decHead_message P hP rnd hg h H.len hpar (H.verify hP) L.bob L.bPriv hL.b _ _ _
  obtain ⟨B1, sb, t, d1, -, d3, -⟩ := decSession_first hP hL a (P.dhPub f.head) H.ident h3 H.idp h5 h8 hdiff hS
  have cov := cov_decSession_first hP hL a (P.dhPub f.head) h3 H.idp h5 h8 hdiff hS hx hfr
  obtain ⟨sb', SB1, e1, -, RB⟩ := (rel_decSession P a (effKeys L.nB) (P.dhPub f.head) L.bob h).sim P
    hrep.connect cov d1
  have hsb : sb.recipientTemp = h.senderSessionPub ∧ sb.keyInitSession = false := by
    unfold decSession at d1
    simp only [bind_eq, hL.b, H.idp, initDHKey_pub32 P hP, initDHKey_public_pub32 P hP, orPanic, ret_bind] at d1
    rw [run_bind_of_ok (a := none) (s1 := B) _ (by
      rw [run_ask_ok]; simp only [MemStore.handle]; rw [show calcStateKey P (P.dhPub L.bPriv)
        (P.dhPub L.aPriv) = L.stateKeyB P from rfl, hS.stB])] at d1
    rw [run_bind_of_ok (a := false) (s1 := B) _ (by
      rw [run_try']; simp only [MemStore.handle, MemStore.hasSession, hS.sessB, Option.isSome_none])] at d1
    rw [if_neg (by simp)] at d1
    exact decUnknown_state P d1
  have hst := rep_state RB (k := L.stateKeyB P) (b64_sha_ne hP _) d3
  obtain ⟨x, SB', g1, g2, g3⟩ := db_nobody P (effKeys L.nB) L.bob h (decSessionKey P L.bob h) sb' SB1
  have hrun : (decrypt P a).run (Store.handle P) SB.connect = (x, SB') := by
    unfold decrypt
    simp only [bind_eq]
    rw [run_bind_of_ok (a := (P.dhPub f.head, L.bob, h, [])) (s1 := SB.connect) _ (by
      rw [(noCall_decHead P a).run, hhead])]
    simp only
    rw [show (if a.numOfKeys = 0 then numOfFutureKeys else a.numOfKeys) = effKeys L.nB from rfl]
    rw [run_bind_of_ok _ e1]
    exact g1
  have hst' : getState SB'.db (L.stateKeyB P) = .ok (some (plain sb)) := by
    unfold getState at hst ⊢
    rw [g3]; exact hst
  refine ⟨SB', plain sb, ?_, hst', ?_, ?_⟩
  · unfold dbTry forgery
    rw [hh, hP.unb64_b64]
    simp only
    rw [show Wire.preHeaderPacket = 1 from rfl,
      Wire.C04_first_roundtrip _ _ (by rw [hP.dhPub_len]; omega)]
    have hrun' := hrun
    simp only [a, rnd, List.append_nil] at hrun'
    simp only [hrun']
    cases x with
    | ok z => exact absurd rfl (g2 z)
    | err z => rfl
    | panic => rfl
  · show sb.recipientTemp.public = _
    rw [hsb.1, h3]; rfl
  · intro a' hp' h' r' hd' hid hnew
    exact C151_established_db_partial P hd' (rp := P.dhPub L.bPriv) (sp := P.dhPub L.aPriv)
      (by rw [hL.b]; exact initDHKey_pub32 P hP _) (by rw [hid]; exact initDHKey_public_pub32 P hP _)
      (st := SB'.connect) (s := plain sb) hst' hsb.2 hnew

end
end Verif.Keydb

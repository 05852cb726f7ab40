import Verif.Msg.TwoWayTalk
import Verif.Keydb.Talk
/-
C152: copies of messages that were changed behind the header.  A copy that is refused does no harm to the
conversation: every message, the one that was changed included, is opened as if the copy had not arrived.
-/
set_option autoImplicit false
namespace Verif.Msg
open Prog
open Wire (Outer newOuter newPre readFirst)
namespace Two

/-! ### The program -/

/-- The length of the first two packets of a message: the pre-header (msg/preheader.go:33-55) and the
encrypted header (msg/header.go, 7168 bytes, a nonce and a length), with their outer headers (msg/outer.go:58-74). -/
def headLen : Nat := 7274

/-- A message with everything behind its header replaced by `junk`; the message is the base64 text
written by Encrypt (msg/encrypt.go:91-447); what is replaced is read in msg/decrypt.go:407-573. -/
def damage (P : Prims) (junk : Bytes) (w : Str) : Str :=
  match P.unb64 w with
  | none => w
  | some b => P.b64 (b.take headLen ++ junk)

/-- An action of a conversation, or: a damaged copy of message number `x` of those sent is given to
Decrypt. -/
inductive DAct where
  | plain (a : Act)
  | damaged (toB : Bool) (x : Nat) (junk fresh : Bytes)

/-- One action; a damaged copy is given to Decrypt like any message (msg/decrypt.go:108-573). -/
def dact (P : Prims) (L : Link) (t : Talk) : DAct → Talk × Out
  | .plain a => act P L t a
  | .damaged true x junk fresh =>
    match t.toB[x]? with
    | none => (t, .nothing)
    | some m => ({ t with B := (openStep P L fresh (damage P junk m) t.B).2 },
        .ofOpen (openStep P L fresh (damage P junk m) t.B).1)
  | .damaged false x junk fresh =>
    match t.toA[x]? with
    | none => (t, .nothing)
    | some m => ({ t with A := (openStep P L.flip fresh (damage P junk m) t.A).2 },
        .ofOpen (openStep P L.flip fresh (damage P junk m) t.A).1)

/-- The outcomes of a list of actions. -/
def dtalk (P : Prims) (L : Link) : Talk → List DAct → List Out
  | _, [] => []
  | t, a :: as => (dact P L t a).2 :: dtalk P L (dact P L t a).1 as

/-! ### The specification -/

/-- The texts sent by the first user so far. -/
def textsA (l : List Str) : Act → Out → List Str
  | .send true _, .sent w => l ++ [w]
  | _, _ => l

/-- The texts sent by the second user so far. -/
def textsB (l : List Str) : Act → Out → List Str
  | .send false _, .sent w => l ++ [w]
  | _, _ => l

/-- `junk` begins with something that is followed by its HMAC under the key for HMACs that belongs to the
key of the message sent as `w`. -/
def Sealed (P : Prims) (L : Link) (e : Sent) (w : Str) (junk : Bytes) : Prop :=
  ∃ messageKey front rest,
    w = P.b64 (messageBytes P e.r.rnd e.h (P.dhPub L.bPriv) messageKey e.r.sigKey e.r.content) ∧
    junk = front ++ P.hmac (deriveSymmetricKeys P messageKey).2 front ++ rest

/-- The outcomes are as they should be.  If a damaged copy is refused, no message counts as opened
because of it; the second user has heard from the first even so.  If Decrypt accepts a damaged copy,
that is with the sender of the message, at a time when the message was not yet opened, and the message
counts as opened from then on; a copy is not accepted unless it contains an HMAC made with the key of
the message, so not if there is nothing in place of the body.  `wA` and `wB` are the texts sent. -/
inductive DAgree (P : Prims) (L : Link) : List Str → List Str → Ref → List DAct → List Out → Prop where
  | nil (wA wB f) : DAgree P L wA wB f [] []
  | plain {wA wB f f' a o as os} : Allowed P L f a o f' →
      DAgree P L (textsA wA a o) (textsB wB a o) f' as os → DAgree P L wA wB f (.plain a :: as) (o :: os)
  | noneB {wA wB f x junk k as os} : f.sentA[x]? = none → DAgree P L wA wB f as os →
      DAgree P L wA wB f (.damaged true x junk k :: as) (.nothing :: os)
  | noneA {wA wB f x junk k as os} : f.sentB[x]? = none → DAgree P L wA wB f as os →
      DAgree P L wA wB f (.damaged false x junk k :: as) (.nothing :: os)
  | refusedB {wA wB f x junk k e as os} : f.sentA[x]? = some e →
      DAgree P L wA wB { f with met := true } as os →
      DAgree P L wA wB f (.damaged true x junk k :: as) (.refused :: os)
  | refusedA {wA wB f x junk k e as os} : f.sentB[x]? = some e → DAgree P L wA wB f as os →
      DAgree P L wA wB f (.damaged false x junk k :: as) (.refused :: os)
  | acceptedB {wA wB f x junk k e w c g as os} : f.sentA[x]? = some e → wA[x]? = some w → junk ≠ [] →
      Sealed P L e w junk → x ∉ f.gotB →
      DAgree P L wA wB { f with gotB := x :: f.gotB, met := true } as os →
      DAgree P L wA wB f (.damaged true x junk k :: as) (.got c L.alice.identity g :: os)
  | acceptedA {wA wB f x junk k e w c g as os} : f.sentB[x]? = some e → wB[x]? = some w → junk ≠ [] →
      Sealed P L.flip e w junk → x ∉ f.gotA →
      DAgree P L wA wB { f with gotA := x :: f.gotA } as os →
      DAgree P L wA wB f (.damaged false x junk k :: as) (.got c L.bob.identity g :: os)

/-- The action without the damage. -/
def DAct.act : DAct → Act
  | .plain a => a
  | .damaged toB x _ fresh => .deliver toB x fresh

/-- What is assumed of an action. -/
def DAct.OK (P : Prims) (L : Link) (uidA uidB : UID) : DAct → Prop
  | .plain a => a.OK P L uidA uidB
  | .damaged _ _ _ _ => True

/-! ### Proof -/

theorem writes_frame {P : Prims} {α : Type} {p : Prog α} (h : Keydb.Writes p) (key : Str) (st : MemStore) :
    Frame key st (p.run (MemStore.handle P) st).2 := by
  induction h generalizing st with
  | ret a => exact Frame.refl _ _
  | fail e => exact Frame.refl _ _
  | panic => exact Frame.refl _ _
  | write b h ih => exact (Frame.wrote key st b).trans (ih _)

section
variable {P : Prims} (hP : P.Good)
include hP

/-- The first two packets of a message have the length `headLen`. -/
theorem head_take {rnd : Rnd} (hr : rnd.nonce.length = 24) {h : Header} (hlen : (P.marshal h).length = 7152)
    (rp mk : Bytes) (sk : Option Bytes) (c : Bytes) :
    (messageBytes P rnd h rp mk sk c).take headLen =
      (newOuter Wire.preHeaderPacket 0 (newPre (P.dhPub rnd.headerPriv)).write).write true ++
      (newOuter Wire.encryptedHeader 1
        (rnd.nonce ++ be16 7168 ++ P.boxSeal (P.marshal h) rnd.nonce rp rnd.headerPriv)).write true := by
  unfold messageBytes
  refine List.take_left' ?_
  have h1 : (newPre (P.dhPub rnd.headerPriv)).write.length = 66 := by
    have := hP.dhPub_len rnd.headerPriv
    simp [Wire.Pre.write, newPre, Wire.ciphersuite, this]
  have h2 := hP.box_len (P.marshal h) rnd.nonce rp rnd.headerPriv
  simp [Wire.Outer.write, newOuter, h1, h2, hr, hlen, headLen]

omit hP in
theorem decBody_nil (mk : Bytes) (su : Str) (st : MemStore) :
    ∃ e, (decBody P mk su []).run (MemStore.handle P) st = (.err e, st) := ⟨_, rfl⟩

/-- A message that ends behind its header is not opened. -/
theorem open_cut {L : Link} {uid : UID} (hL : L.OK P uid) {r : Round} (hr : r.OK P uid) {i : Nat} {q : Sn}
    {nx sn : Option Bytes} {h : Header} (H : Hdr P L q i nx sn h)
    (hparse : P.parse (P.marshal h) = some h) (fresh : Bytes) (B : MemStore) :
    (openStep P L fresh (damage P [] (wireOf P L r h q i)) B).1 = none := by
  have hlen := H.len
  have hhead : (decHead P ⟨[L.bob], (newPre (P.dhPub r.rnd.headerPriv)).write,
        (newOuter Wire.encryptedHeader 1 (r.rnd.nonce ++ be16 7168 ++
          P.boxSeal (P.marshal h) r.rnd.nonce (P.dhPub L.bPriv) r.rnd.headerPriv)).write true ++ [],
        L.nB, fresh⟩).run (MemStore.handle P) B = (.ok (P.dhPub r.rnd.headerPriv, L.bob, h, []), B) := by
    rw [(noCall_decHead P _).run, decHead_message P hP r.rnd hr.rnd h hlen hparse (H.verify hP) L.bob L.bPriv
      hL.b _ _ _]
  unfold openStep damage wireOf
  rw [hP.unb64_b64]
  simp only
  rw [head_take hP hr.rnd.nonce_len hlen, hP.unb64_b64]
  simp only
  rw [List.append_assoc, show Wire.preHeaderPacket = 1 from rfl,
    Wire.C04_first_roundtrip _ _ (by rw [hP.dhPub_len]; omega)]
  simp only
  split
  · rename_i x hx
    exfalso
    unfold decrypt at hx
    simp only [bind_eq] at hx
    rw [run_bind_of_ok _ hhead] at hx
    simp only [run_bind_ok] at hx
    obtain ⟨ss, s1, -, _, s2, -, mk, s3, -, sig, s4, g, -⟩ := hx
    obtain ⟨e, he⟩ := decBody_nil (P := P) mk h.senderUID s3
    rw [he] at g
    cases g
  · rfl

/-- One attempt to open a damaged message, given what session handling does. -/
theorem dec_damaged {L : Link} {uid : UID} (hL : L.OK P uid) {r : Round} (hr : r.OK P uid)
    {K : List Bytes} (hK : Keys P L.flip K) {G : List Sn}
    {v : View} {B B1 B' : MemStore} (I : PInv P L.flip K G v B1) {j i : Nat} {q : Sn} (hj : j < v.known)
    (hq : G[j]? = some q) (hi : i < 2 ^ 62) (hsent : v.sent j < 2 ^ 62) {nx sn : Option Bytes}
    {h : Header} (H : Hdr P L q.flip i nx sn h) (hparse : P.parse (P.marshal h) = some h) {sb : State}
    (hsb : B1.states (L.flip.stateKeyA P) = some sb) (fresh junk : Bytes)
    (hs : (decSession P ⟨[L.bob], (newPre (P.dhPub r.rnd.headerPriv)).write,
        (newOuter Wire.encryptedHeader 1 (r.rnd.nonce ++ be16 7168 ++
          P.boxSeal (P.marshal h) r.rnd.nonce (P.dhPub L.bPriv) r.rnd.headerPriv)).write true ++ junk,
        L.nB, fresh⟩ (effKeys L.nB) (P.dhPub r.rnd.headerPriv) L.bob h).run
          (MemStore.handle P) B = (.ok (some sb), B1))
    {x : Option (Bytes × Str × Str)}
    (hno : openStep P L fresh (damage P junk (wireOf P L r h q.flip i)) B = (x, B')) :
    (x = none ∧ PInv P L.flip K G v B') ∨
    (∃ c g, x = some (c, L.alice.identity, g) ∧ i ∉ v.opened j ∧
      Sealed P L ⟨r, h⟩ (wireOf P L r h q.flip i) junk ∧
      PInv P L.flip K G { v with opened := fset v.opened j (i :: v.opened j) } B') := by
  obtain ⟨ss, s0, hs0, hst, hss⟩ := I.state
  rw [hsb] at hst; cases hst
  have hmq := List.mem_of_getElem? hq
  have hKq := I.mem q hmq
  have hK0 := I.mem s0 (List.mem_of_getElem? hs0)
  have hfl := fix_flip P L
  obtain ⟨m, t, J⟩ := I.sess j q hj hq
  rw [hfl] at J
  have h5 : h.recipientTempHash = keyHash P q.a := H.temp
  have h3 : h.senderSessionPub = (initDHKey P q.b).public := H.sess
  have h4 := H.idp
  have h6 := H.count
  have hv := H.verify hP
  have hlen := H.len
  have hkey : decSessionKey P L.bob h = L.flip.skey P q.a q.b := by
    simp only [decSessionKey, hL.b, h3, h4, h5]; rfl
  have hfix : identityFix P h.senderIdentity L.bob.identity = L.fix P := by rw [H.ident]; rfl
  have hown : (keyHash P q.a = sb.senderSessionPub.hash ∧ sb.senderSessionPub.pub32 P = some (P.dhPub q.a)) ∨
      (keyHash P q.a ≠ sb.senderSessionPub.hash ∧ Own P B1 (keyHash P q.a) (P.dhPub q.a)) := by
    by_cases e : keyHash P q.a = sb.senderSessionPub.hash
    · refine .inl ⟨e, ?_⟩
      rw [hss.own] at e
      rw [hss.own, hK.inj _ hKq.1 _ hK0.1 e]
      exact initDHKey_pub32 P hP _
    · exact .inr ⟨e, I.own j q hj hq⟩
  have hext := SInv.decExtend hP (effKeys_ne L.nB) (effKeys_lt hL.nB) (u := L.bob) (h := h) (ss := sb)
    (I.rlen q hmq) (sp := P.dhPub q.b) (rp := P.dhPub q.a) (by rw [h3]; exact initDHKey_public_pub32 P hP _)
    h5 (by rw [h3]; rfl) hi h6 hsent (by rw [h5]; exact hown)
    (by rw [hkey, hfix]; exact J)
  rw [hkey, hfix] at hext
  let key := L.flip.skey P q.a q.b
  let tail : Prog (Str × Str) :=
    (decExtend P (effKeys L.nB) L.bob h key (some sb)).bind fun _ =>
      (Prog.ask (.getMsgKey key false h.senderMessageCount)).bind fun mk =>
        (decBody P mk h.senderUID junk).bind fun sig =>
          (Prog.ask (.delMsgKey key false h.senderMessageCount)).bind fun _ =>
            .ret (h.senderIdentity, sig)
  have hrun : (decrypt P ⟨[L.bob], (newPre (P.dhPub r.rnd.headerPriv)).write,
        (newOuter Wire.encryptedHeader 1 (r.rnd.nonce ++ be16 7168 ++
          P.boxSeal (P.marshal h) r.rnd.nonce (P.dhPub L.bPriv) r.rnd.headerPriv)).write true ++ junk,
        L.nB, fresh⟩).run (MemStore.handle P) B = tail.run (MemStore.handle P) B1 := by
      have hhead : (decHead P ⟨[L.bob], (newPre (P.dhPub r.rnd.headerPriv)).write,
        (newOuter Wire.encryptedHeader 1 (r.rnd.nonce ++ be16 7168 ++
          P.boxSeal (P.marshal h) r.rnd.nonce (P.dhPub L.bPriv) r.rnd.headerPriv)).write true ++ junk,
        L.nB, fresh⟩).run (MemStore.handle P) B =
          (.ok (P.dhPub r.rnd.headerPriv, L.bob, h, junk), B) := by
        rw [(noCall_decHead P _).run, decHead_message P hP r.rnd hr.rnd h hlen hparse hv L.bob L.bPriv
          hL.b _ _ _]
      unfold decrypt
      simp only [bind_eq]
      rw [run_bind_of_ok _ hhead]
      simp only
      rw [show (if L.nB = 0 then numOfFutureKeys else L.nB) = effKeys L.nB from rfl]
      rw [run_bind_of_ok _ hs, hkey]
  have hopen : openStep P L fresh (damage P junk (wireOf P L r h q.flip i)) B =
      match tail.run (MemStore.handle P) B1 with
      | (.ok (sender, sig), B') => (some (B'.out.drop B.out.length, sender, sig), B')
      | (_, B') => (none, B') := by
    unfold openStep damage wireOf
    rw [hP.unb64_b64]
    simp only
    rw [head_take hP hr.rnd.nonce_len hlen, hP.unb64_b64]
    simp only
    rw [List.append_assoc, show Wire.preHeaderPacket = 1 from rfl,
      Wire.C04_first_roundtrip _ _ (by rw [hP.dhPub_len]; omega)]
    simp only
    rw [hrun]
    all_goals rfl
  rw [hopen] at hno
  have hi64 : i < 2 ^ 64 := by omega
  -- the store is changed only within the session of the message
  have none' : ∀ {m' t'}, x = none → Frame key B1 B' →
      SInv P key q.root (P.dhPub q.a) (P.dhPub q.b) (L.fix P) (v.sent j) (v.opened j) m' B' t' →
      (x = none ∧ PInv P L.flip K G v B') := by
    intro m' t' hx F J'
    have := I.update hK hj hq (o := v.opened j) F ⟨m', t', by rw [hfl]; exact J'⟩
    rw [fset_id] at this
    exact ⟨hx, this⟩
  rcases hext with ⟨m', B2, t2, e2, him, F2, J2⟩ | ⟨g1, g2, g3⟩
  · have htail : tail.run (MemStore.handle P) B1 =
      ((Prog.ask (.getMsgKey key false h.senderMessageCount)).bind fun mk =>
      (decBody P mk h.senderUID junk).bind fun sig =>
        (Prog.ask (.delMsgKey key false h.senderMessageCount)).bind fun _ =>
          .ret (h.senderIdentity, sig)).run (MemStore.handle P) B2 := run_bind_of_ok _ e2
    rw [htail] at hno
    by_cases ho : i ∈ v.opened j
    · rw [run_bind, run_ask, h6] at hno
      simp only [MemStore.handle, key, J2.usedKey hi64 ho] at hno
      cases hno
      exact .inl (none' rfl F2 J2)
    · rw [run_bind_of_ok (a := senderKey P q.root (P.dhPub q.a) (L.fix P) i) (s1 := B2) _
        (by rw [run_ask_ok, h6]; simp only [MemStore.handle]
            exact congrArg (·, B2) (J2.recvKey hP him hi64 ho)), run_bind] at hno
      have hw := Keydb.writes_decBody (P := P) (senderKey P q.root (P.dhPub q.a) (L.fix P) i) h.senderUID junk
      have hfr := writes_frame (P := P) hw key B2
      have hse := hw.sessions (P := P) B2
      generalize hz : (decBody P (senderKey P q.root (P.dhPub q.a) (L.fix P) i) h.senderUID junk).run
        (MemStore.handle P) B2 = z at hno hfr hse
      obtain ⟨y, B3⟩ := z
      have J3 := J2.moved (st' := B3) (congrFun hse _)
      cases y with
      | ok sig =>
        obtain ⟨t3, e3, J4⟩ := J3.delRecv him hi64
        simp only at hno
        rw [run_bind_of_ok (a := ()) (s1 := B3.setSess key t3) _ (by rw [run_ask_ok, h6]; exact e3)] at hno
        cases hno
        obtain ⟨p2, p3, p4, p5, i1, i2, rest, uid', f1, -, f3, -⟩ := decBody_ok hz
        exact .inr ⟨_, _, by rw [H.ident], ho, ⟨senderKey P q.root (P.dhPub q.a) (L.fix P) i,
          p2.write true ++ p3.write true ++ p4.write true ++ p5.write false, rest, rfl, by
            rw [← f3, f1, bodyBytes, write_true p5]; simp only [List.append_assoc]⟩, I.update hK hj hq
          ((F2.trans hfr).trans (Frame.setSess _ _ _)) ⟨m', t3, by rw [hfl]; exact J4⟩⟩
      | err e => cases hno; exact .inl (none' rfl (F2.trans hfr) J3)
      | panic => cases hno; exact .inl (none' rfl (F2.trans hfr) J3)
  · have htail : tail.run (MemStore.handle P) B1 = (.err .tooManyKeys, B1) := by
      show (Prog.bind _ _).run _ _ = _
      rw [run_bind, g3]
    rw [htail] at hno
    cases hno
    exact .inl (none' rfl (Frame.refl _ _) J)

/-- A damaged copy reaches the second party. -/
theorem Both.damaged {L : Link} {uidA uidB : UID} (hL : L.OK P uidA) (hL' : L.flip.OK P uidB)
    {K : List Bytes} (hK : Keys P L.flip K)
    (hparse : ∀ h : Header, h.Clean → (P.marshal h).length = 7152 → P.parse (P.marshal h) = some h)
    {Uh Us rest : List Bytes} {G : List Sn} {v w : View} {A B : MemStore} {ra rb : List Rec}
    {gotB gotA : List Nat} {fresh : Bytes}
    (H : Both P L K uidA uidB Uh Us G v w A B ra rb gotB gotA) (hla : ra.length < 2 ^ 62)
    (hlb : rb.length < 2 ^ 62) (dr : Draws L K Uh Us (fresh :: rest)) {x : Nat} {m : Rec}
    (hm : ra[x]? = some m) (junk : Bytes) {B2 : MemStore}
    {y : Option (Bytes × Str × Str)} (hno : openStep P L fresh (damage P junk m.wire) B = (y, B2)) :
    ∃ G' w', w'.ex = w.ex ∧
      ((y = none ∧ Both P L K uidA uidB Uh (fresh :: Us) G' v w' A B2 ra rb gotB gotA) ∨
       (∃ c g, y = some (c, L.alice.identity, g) ∧ Sealed P L m.e m.wire junk ∧ x ∉ gotB ∧
        Both P L K uidA uidB Uh (fresh :: Us) G' v w' A B2 ra rb (x :: gotB) gotA)) := by
  have hmem := List.mem_of_getElem? hm
  have ok := H.dA.ok m hmem
  obtain ⟨hr1, hr2⟩ := H.dA.rok m hmem
  obtain ⟨s, hs, Hd, hw⟩ := ok.hd
  obtain ⟨h, hh0⟩ : ∃ h, h = m.h := ⟨_, rfl⟩
  rw [← hh0] at Hd hw
  obtain ⟨q1, q2, q3, q4, q5, G', w', q6, q7, q8, q9, q10, q11, q12, q13, q14⟩ :=
    recv_joint hP H.IA H.rel H.IB.seen H.IB.cur H.pool dr ok
  obtain ⟨hb1, hb2⟩ := recvStep_base P L.flip fresh m.nx m.sn m.j (G.map Sn.flip) w
  rw [q6] at hb1 hb2
  have hq := get_flip hs
  have Hd' : Hdr P L s.flip.flip m.i m.nx m.sn h := by rw [Sn.flip_flip]; exact Hd
  obtain ⟨sb, B1, d1, d2, d3⟩ := dec_session hP hL hL' hK H.IB q1 hq Hd'
    ⟨[L.bob], (newPre (P.dhPub m.r.rnd.headerPriv)).write,
        (newOuter Wire.encryptedHeader 1 (m.r.rnd.nonce ++ be16 7168 ++
          P.boxSeal (P.marshal h) m.r.rnd.nonce (P.dhPub L.bPriv) m.r.rnd.headerPriv)).write true ++
          junk, L.nB, fresh⟩ (hp := m.r.rnd.headerPriv) (dr.h _ ok.head).1 q2 q3 q4 q5
  rw [show (recvStep P L.flip fresh m.nx m.sn m.j (G.map Sn.flip) w) = _ from q6] at d3
  have hix := H.dA.idx x m hm
  have hxl := (List.getElem?_eq_some_iff.mp hm).1
  have hcnt := ok.cnt
  have hB := dec_damaged hP hL hr1 hK d3 q13 (q9.sub _ _ hq) (by omega)
    (by rw [q11]; have := H.dB.sentle m.j; omega) Hd' (hparse h Hd.clean Hd.len) d2 fresh junk d1
    (x := y) (B' := B2) (by rw [Sn.flip_flip, ← hw]; exact hno)
  rw [q12] at hB
  have hop := H.dA.opened x m hm
  have hdA : Dir P L uidA Uh G' v w' ra gotB :=
    H.dA.later ⟨q10, fun _ => Nat.le_refl _, .inl ⟨rfl, fun _ h => h⟩⟩ (fun _ h => h) rfl q12
  have hdB := H.dB.later (w' := v) q9 (fun _ h => h) q11 rfl
  rw [Sn.flip_flip, ← hw, hh0] at hB
  rcases hB with ⟨g1, g2⟩ | ⟨c, g, g1, g2, g4, g3⟩
  · exact ⟨G', w', hb2, .inl ⟨g1, q7, g2, q8, q14, hdA, hdB⟩⟩
  · refine ⟨G', { w' with opened := fset w.opened m.j (m.i :: w.opened m.j) }, hb2,
      .inr ⟨c, g, g1, g4, fun h => g2 (hop.mpr h), q7, g3, ?_, ⟨q14.sess, q14.nv, q14.nw, q14.ev, q14.ew⟩,
        hdA.open hm (by simp only [q12]), hdB.later ⟨fun _ _ h => h, fun _ => Nat.le_refl _,
          .inl ⟨rfl, fun _ h => h⟩⟩ (fun _ h => h) rfl rfl⟩⟩
    · cases q8 with
      | even h1 h2 h3 h4 => exact .even h1 h2 h3 h4
      | prepL h1 h2 h3 h4 h5 => exact .prepL h1 h2 h3 h4 h5
      | prepR h1 h2 h3 h4 h5 => exact .prepR h1 h2 h3 h4 h5
      | aheadL h1 h2 h3 h4 => exact .aheadL h1 h2 h3 h4
      | aheadR h1 h2 h3 h4 => exact .aheadR h1 h2 h3 h4

/-- The first copy to reach the second party is damaged. -/
theorem first_damaged {L : Link} {uidA uidB : UID} (hL : L.OK P uidA) (hL' : L.flip.OK P uidB)
    {K : List Bytes} (hK : Keys P L.flip K)
    (hparse : ∀ h : Header, h.Clean → (P.marshal h).length = 7152 → P.parse (P.marshal h) = some h)
    {B : MemStore} {ex : List Bytes}
    (hst : ∀ ss, B.states (L.stateKeyB P) = some ss →
      ss.keyInitSession = true ∧ L.alice.identity < L.bob.identity)
    (hse : ∀ y ∈ K, y ∉ ex → ∀ x ∈ K, B.sessions (L.flip.skey P y x) = none)
    (hpriv : B.privs (keyHash P L.kPriv) = some (initDHKey P L.kPriv))
    (hpr : ∀ x ∈ K, ∀ ke, B.privs (keyHash P x) = some ke → ke = initDHKey P x)
    (hskB : ∀ x ∈ K, x ∉ ex → ∀ ke p, B.skeys (keyHash P x) = some (ke, p) → p = [])
    {Uh Us rest : List Bytes} {s : Bytes} {v : View} {A : MemStore} {ra : List Rec} {fresh : Bytes}
    (IA : PInv P L K [firstSn P L s] v A) (hc : v.cur = 0) (hsn : v.sn = none)
    (ho : v.opened = fun _ => []) (hk : L.kPriv ∈ Us) (hke : L.kPriv ∉ ex)
    (pool : Pool Us [firstSn P L s] v (view0 B.sessions ex false))
    (D : Dir P L uidA Uh [firstSn P L s] v (view0 B.sessions ex false) ra []) (hla : ra.length < 2 ^ 62)
    (dr : Draws L K Uh Us (fresh :: rest)) {x : Nat} {m : Rec} (hm : ra[x]? = some m) (junk : Bytes)
    {B2 : MemStore} {y : Option (Bytes × Str × Str)}
    (hno : openStep P L fresh (damage P junk m.wire) B = (y, B2)) :
    ∃ G' w', w'.ex = ex ∧
      ((y = none ∧ Both P L K uidA uidB Uh (fresh :: Us) G' v w' A B2 ra [] [] []) ∨
       (∃ c g, y = some (c, L.alice.identity, g) ∧ Sealed P L m.e m.wire junk ∧
        Both P L K uidA uidB Uh (fresh :: Us) G' v w' A B2 ra [] [x] [])) := by
  have hmem := List.mem_of_getElem? hm
  have ok := D.ok m hmem
  obtain ⟨hr1, hr2⟩ := D.rok m hmem
  obtain ⟨s0, hs, Hd, hw⟩ := ok.hd
  obtain ⟨h, hh0⟩ : ∃ h, h = m.h := ⟨_, rfl⟩
  rw [← hh0] at Hd hw
  have hj : m.j = 0 := by have := ok.cur; omega
  rw [hj] at hs
  obtain rfl : firstSn P L s = s0 := Option.some.inj hs
  have hfr := dr.r fresh (by simp)
  have hfs : fresh ∉ Us := fun h => (dr.s _ h).2.2.2 (by simp)
  have hh := dr.h _ ok.head
  obtain ⟨hsU, -, hsk⟩ := pool.sess (firstSn P L s) (by simp)
  have hsU : s ∈ Us := hsU
  have hsk : s ≠ L.kPriv := hsk
  have hks := dr.s _ hk
  have hss := dr.s _ hsU
  have rel0 : Rel [firstSn P L s].length v (view0 B.sessions ex false) := .even hc hsn rfl (by rw [hc]; rfl)
  obtain ⟨-, q2, -, q4, -, Gq, wq, q6, q7, q8, q9, q10, q11, q12, q13, q14⟩ :=
    recv_joint hP IA rel0 (fun x hx => nomatch hx) rfl pool dr ok
  obtain ⟨sb, B1, d1, d2, d3⟩ := dec_first hP hL hL' hK hst hse hpriv hpr hskB Hd
    ⟨[L.bob], (newPre (P.dhPub m.r.rnd.headerPriv)).write,
        (newOuter Wire.encryptedHeader 1 (m.r.rnd.nonce ++ be16 7168 ++
          P.boxSeal (P.marshal h) m.r.rnd.nonce (P.dhPub L.bPriv) m.r.rnd.headerPriv)).write true ++
          junk, L.nB, fresh⟩ (hp := m.r.rnd.headerPriv) hh.1 hks.1 hke hss.1
    hfr.1 (fun h => hfs (pool.ew _ h)) (fun e => hfs (by
      have e : L.kPriv = fresh := e
      rw [← e]; exact hk))
    (fun y hy => ⟨q2 y hy, (q4 y hj hy rfl).2.2.2.2⟩) (by
      have h1 : m.r.rnd.headerPriv ≠ s := fun e => hh.2.2.2.1 (e ▸ hsU)
      have h2 : m.r.rnd.headerPriv ≠ L.kPriv := fun e => hh.2.2.2.1 (e ▸ hk)
      simp only [List.nodup_cons, List.mem_cons, List.not_mem_nil, or_false, not_or,
        not_false_eq_true, List.nodup_nil, and_true]
      exact ⟨⟨hh.2.1, h1, hh.2.2.1, h2⟩, ⟨fun e => hss.2.1 e.symm, dr.ab, fun e => hks.2.1 e.symm⟩,
        ⟨hss.2.2.1, hsk⟩, fun e => hks.2.2.1 e.symm⟩)
  have hjoint : ∃ G' w', startStep P L.flip B.sessions ex (firstSn P L s).flip fresh m.nx = (G'.map Sn.flip, w') ∧
      PInv P L K G' v A ∧ Rel G'.length v w' ∧
      (∀ (j : Nat) (s' : Sn), [firstSn P L s][j]? = some s' → G'[j]? = some s') ∧
      w'.sent = (fun _ => 0) ∧ w'.opened = (fun _ => []) ∧ 0 < w'.known ∧ Pool (fresh :: Us) G' v w' ∧
      (w'.ex = ex ∧ w'.base = B.sessions) ∧
      (m.nx = none → G' = [firstSn P L s] ∧ w'.cur = 0 ∧ w'.nx = some fresh ∧ w'.sn = none) := by
    cases hnx : m.nx with
    | none =>
      refine ⟨[firstSn P L s], _, rfl, IA, .even hc hsn rfl (by rw [hc]; rfl), fun _ _ h => h, rfl, rfl,
        Nat.zero_lt_one, ?_, ⟨rfl, rfl⟩, fun _ => ⟨rfl, rfl, rfl, rfl⟩⟩
      have pm := pool.more (Us' := fresh :: Us) (fun x hx => by simp [hx])
      refine ⟨pm.sess, pm.nv, ?_, pm.ev, pm.ew⟩
      intro y hy
      simp only [Option.some.injEq] at hy
      simp [← hy]
    | some y =>
      refine ⟨Gq, wq, ?_, q7, q8, q10, q11, q12, by omega, q14, ?_, fun h => nomatch h⟩
      · rw [← q6, hnx, hj]; rfl
      · have hb := (recvStep_base P L.flip fresh m.nx m.sn m.j ([firstSn P L s].map Sn.flip)
          (view0 B.sessions ex false))
        rw [q6] at hb
        exact ⟨hb.2, hb.1⟩
  obtain ⟨G', w', j1, j2, j3, j4, j5, j6, j7, j8, j9⟩ := hjoint
  rw [show startStep P L.flip B.sessions ex (firstSn P L s).flip fresh m.nx = _ from j1] at d3
  have hq : (G'.map Sn.flip)[0]? = some (firstSn P L s).flip := get_flip (j4 0 _ rfl)
  have hix := D.idx x m hm
  have hxl := (List.getElem?_eq_some_iff.mp hm).1
  have Hd' : Hdr P L (firstSn P L s).flip.flip m.i m.nx m.sn h := by rw [Sn.flip_flip]; exact Hd
  have hB := dec_damaged hP hL hr1 hK d3 j7 hq (by omega)
    (by rw [j5]; show 0 < 2 ^ 62; omega) Hd' (hparse h Hd.clean Hd.len) d2 fresh junk d1
    (x := y) (B' := B2) (by rw [Sn.flip_flip, ← hw]; exact hno)
  have hdA : Dir P L uidA Uh G' v w' ra [] :=
    D.later ⟨j4, fun _ => Nat.le_refl _, .inl ⟨rfl, fun _ h => h⟩⟩ (fun _ h => h) rfl j6
  have hdB : ∀ w'' : View, w''.sent = w'.sent → Dir P L.flip uidB Uh (G'.map Sn.flip) w'' v [] [] := by
    intro w'' hw
    refine ⟨fun m h => absurd h (by simp), fun m h => absurd h (by simp), fun x m h => absurd h (by simp),
      ?_, fun x x' m m' h => absurd h (by simp), fun x m h => absurd h (by simp), ?_, fun x h => absurd h (by simp)⟩
    · intro j
      rw [hw, j5]; rfl
    · intro j i hi
      rw [ho] at hi; exact absurd hi (by simp)
  rw [j6] at hB
  rw [Sn.flip_flip, ← hw, hh0] at hB
  rcases hB with ⟨g1, g2⟩ | ⟨c, g, g1, g2, g4, g3⟩
  · exact ⟨G', w', j9.1.1, .inl ⟨g1, j2, g2, j3, j8, hdA, hdB _ rfl⟩⟩
  · refine ⟨G', { w' with opened := fset (fun _ => []) 0 [m.i] }, j9.1.1, .inr ⟨c, g, g1, g4, j2, g3, ?_,
      ⟨j8.sess, j8.nv, j8.nw, j8.ev, j8.ew⟩, hdA.open hm (by simp only [j6, hj]), hdB _ rfl⟩⟩
    · cases j3 with
      | even h1 h2 h3 h4 => exact .even h1 h2 h3 h4
      | prepL h1 h2 h3 h4 h5 => exact .prepL h1 h2 h3 h4 h5
      | prepR h1 h2 h3 h4 h5 => exact .prepR h1 h2 h3 h4 h5
      | aheadL h1 h2 h3 h4 => exact .aheadL h1 h2 h3 h4
      | aheadR h1 h2 h3 h4 => exact .aheadR h1 h2 h3 h4

theorem Dir.cut {L : Link} {uid : UID} (hL : L.OK P uid)
    (hparse : ∀ h : Header, h.Clean → (P.marshal h).length = 7152 → P.parse (P.marshal h) = some h)
    {Uh : List Bytes} {G : List Sn} {v w : View} {recs : List Rec} {got : List Nat}
    (D : Dir P L uid Uh G v w recs got) {x : Nat} {m : Rec} (hm : recs[x]? = some m) (fresh : Bytes)
    (B : MemStore) : (openStep P L fresh (damage P [] m.wire) B).1 = none := by
  have hmem := List.mem_of_getElem? hm
  obtain ⟨s, h, hs, Hd, hw⟩ := (D.ok m hmem).hdr
  rw [hw]
  exact open_cut hP hL (D.rok m hmem).1 Hd (hparse h Hd.clean Hd.len) fresh B

end

theorem Setting.firstDamaged {P : Prims} {L : Link} {uidA uidB : UID} {K : List Bytes} {A0 B : MemStore}
    (S : Setting P L uidA uidB K A0 B)
    {Uh Us rest : List Bytes} {s : Bytes} {v : View} {A : MemStore} {ra : List Rec} {fresh : Bytes}
    (IA : PInv P L K [firstSn P L s] v A) (hc : v.cur = 0) (hsn : v.sn = none)
    (ho : v.opened = fun _ => []) (hk : L.kPriv ∈ Us)
    (pool : Pool Us [firstSn P L s] v (view0 B.sessions [] false))
    (D : Dir P L uidA Uh [firstSn P L s] v (view0 B.sessions [] false) ra []) (hla : ra.length < 2 ^ 62)
    (dr : Draws L K Uh Us (fresh :: rest)) {x : Nat} {m : Rec} (hm : ra[x]? = some m) (junk : Bytes)
    {B2 : MemStore} {y : Option (Bytes × Str × Str)}
    (hno : openStep P L fresh (damage P junk m.wire) B = (y, B2)) :
    ∃ G' w', w'.ex = [] ∧
      ((y = none ∧ Both P L K uidA uidB Uh (fresh :: Us) G' v w' A B2 ra [] [] []) ∨
       (∃ c g, y = some (c, L.alice.identity, g) ∧ Sealed P L m.e m.wire junk ∧
        Both P L K uidA uidB Uh (fresh :: Us) G' v w' A B2 ra [] [x] [])) :=
  first_damaged S.prims S.a S.b S.keysB S.parse (ex := [])
    (fun ss h => by rw [S.start.stB] at h; cases h) (fun y hy _ x hx => S.start.sessB y hy x hx)
    S.start.priv S.privB (fun x hx _ ke p h => by rw [S.newB x hx] at h; cases h) IA hc hsn ho hk
    (by simp) pool D hla dr hm junk hno

theorem act_textsA (P : Prims) (L : Link) (t : Talk) (a : Act) :
    (act P L t a).1.toB = textsA t.toB a (act P L t a).2 := by
  rcases a with ⟨_ | _, r⟩ | ⟨_ | _, x, k⟩ <;> simp only [act] <;> split <;> rfl

theorem act_textsB (P : Prims) (L : Link) (t : Talk) (a : Act) :
    (act P L t a).1.toA = textsB t.toA a (act P L t a).2 := by
  rcases a with ⟨_ | _, r⟩ | ⟨_ | _, x, k⟩ <;> simp only [act] <;> split <;> rfl

theorem Setting.dsteps {P : Prims} {L : Link} {uidA uidB : UID} {K : List Bytes} {A0 B0 : MemStore}
    (S : Setting P L uidA uidB K A0 B0) : ∀ (as : List DAct) {Uh Us : List Bytes} {t : Talk} {f : Ref}
    {ra rb : List Rec}, Phase P L K uidA uidB A0 B0 Uh Us t f ra rb →
    (∀ a ∈ as, a.OK P L uidA uidB) → ra.length + as.length < 2 ^ 62 → rb.length + as.length < 2 ^ 62 →
    Draws L K Uh Us (draws (as.map DAct.act)) → DAgree P L t.toB t.toA f as (dtalk P L t as) := by
  have hP := S.prims
  intro as
  induction as with
  | nil => intros; exact .nil _ _ _
  | cons a as ih =>
    intro Uh Us t f ra rb F ha hra hrb dr
    rw [List.length_cons] at hra hrb
    have ha' : ∀ a ∈ as, a.OK P L uidA uidB := fun a h => ha a (by simp [h])
    cases a with
    | plain a =>
      obtain ⟨f', ra', rb', Uh', Us', e1, e2, e3, e4, e5⟩ := S.step F a (as.map DAct.act)
        (ha (.plain a) (by simp)) (by omega) (by omega) dr
      refine .plain e1 ?_
      rw [show dact P L t (.plain a) = act P L t a from rfl, ← act_textsA, ← act_textsB]
      exact ih e2 ha' (by omega) (by omega) e3
    | damaged toB x junk fresh =>
      have dr' : Draws L K Uh (fresh :: Us) (draws (as.map DAct.act)) := Draws.deliver dr
      have more : Phase P L K uidA uidB A0 B0 Uh (fresh :: Us) t f ra rb := by
        cases F with
        | zero hk => exact .zero (by simp [hk])
        | one h1 h2 h3 h4 h5 h6 h7 h8 =>
          exact .one h1 h2 h3 h4 (by simp [h5]) (h6.more (fun x hx => by simp [hx])) h7 h8
        | two H hv hw => exact .two (H.more (fun _ h => h) (fun x hx => by simp [hx])) hv hw
      unfold dtalk
      cases toB with
      | true =>
        cases hx : t.toB[x]? with
        | none =>
          simp only [dact, hx]
          refine .noneB ?_ (ih more ha' (by omega) (by omega) dr')
          cases F with
          | zero hk => rfl
          | one h1 h2 h3 h4 h5 h6 h7 h8 => exact get_none Rec.e hx
          | two H hv hw => exact get_none Rec.e hx
        | some wire =>
          simp only [dact, hx]
          cases F with
          | zero hk => cases hx
          | @one s v A ra h1 h2 h3 h4 h5 h6 h7 h8 =>
            obtain ⟨m, hm, rfl⟩ := get_map hx
            have hfm : (ra.map Rec.e)[x]? = some m.e := by rw [List.getElem?_map, hm]; rfl
            simp only
            rcases ho : openStep P L fresh (damage P junk m.wire) B0 with ⟨y, B2⟩
            obtain ⟨G', w', hw, ⟨rfl, H⟩ | ⟨c, g, rfl, hse, H⟩⟩ :=
              S.firstDamaged h1 h2 h3 h4 h5 h6 h7 (by omega) dr hm junk ho
            · exact .refusedB hfm (ih (.two H h8 hw) ha' (by omega) (by simpa using by omega) dr')
            · refine .acceptedB hfm hx ?_ hse (by exact List.not_mem_nil)
                (ih (.two H h8 hw) ha' (by omega) (by simpa using by omega) dr')
              rintro rfl
              exact absurd (h7.cut hP S.a S.parse hm fresh B0) (by rw [ho]; simp)
          | @two G v w A B ra rb gotB gotA H hv hw =>
            obtain ⟨m, hm, rfl⟩ := get_map hx
            have hfm : (ra.map Rec.e)[x]? = some m.e := by rw [List.getElem?_map, hm]; rfl
            simp only
            rcases ho : openStep P L fresh (damage P junk m.wire) B with ⟨y, B2⟩
            obtain ⟨G', w', hw', ⟨rfl, H'⟩ | ⟨c, g, rfl, hse, hx', H'⟩⟩ :=
              H.damaged hP S.a S.b S.keysB S.parse (by omega) (by omega) dr hm junk ho
            · exact .refusedB hfm (ih (.two H' hv (hw'.trans hw)) ha' (by omega) (by omega) dr')
            · refine .acceptedB hfm hx ?_ hse hx' (ih (.two H' hv (hw'.trans hw)) ha' (by omega) (by omega) dr')
              rintro rfl
              exact absurd (H.dA.cut hP S.a S.parse hm fresh B) (by rw [ho]; simp)
      | false =>
        cases hx : t.toA[x]? with
        | none =>
          simp only [dact, hx]
          refine .noneA ?_ (ih more ha' (by omega) (by omega) dr')
          cases F with
          | zero hk => rfl
          | one h1 h2 h3 h4 h5 h6 h7 h8 => rfl
          | two H hv hw => exact get_none Rec.e hx
        | some wire =>
          simp only [dact, hx]
          cases F with
          | zero hk => cases hx
          | one h1 h2 h3 h4 h5 h6 h7 h8 => cases hx
          | @two G v w A B ra rb gotB gotA H hv hw =>
            obtain ⟨m, hm, rfl⟩ := get_map hx
            have hfm : (rb.map Rec.e)[x]? = some m.e := by rw [List.getElem?_map, hm]; rfl
            simp only
            rcases ho : openStep P L.flip fresh (damage P junk m.wire) A with ⟨y, A2⟩
            obtain ⟨G', v', hv', ⟨rfl, H'⟩ | ⟨c, g, rfl, hse, hx', H'⟩⟩ :=
              H.symm.damaged hP S.b S.a S.keysA S.parse (by omega) (by omega) dr.symm hm junk ho
            · exact .refusedA hfm (ih (.two H'.symm (hv'.trans hv) hw) ha' (by omega) (by omega) dr')
            · refine .acceptedA hfm hx ?_ hse hx' (ih (.two H'.symm (hv'.trans hv) hw) ha' (by omega) (by omega) dr')
              rintro rfl
              exact absurd (H.dB.cut hP S.b S.parse hm fresh A) (by rw [ho]; simp)

/-- C152: two users who have never communicated, of whom the first has the second's KeyInit, send each
other messages and open them, in any order, any number of times.  In between either of them is given
copies of these messages with anything at all in place of what follows the header.  Every message opens
with exactly what was sent, once; an attempt fails only if the message, or a copy of it, was opened
before, or if it is too far from the beginning of its session.  Refused copies have no effect on that.
A copy is not accepted unless it contains an HMAC made with the key of the message. -/
theorem C152_damaged_partial {P : Prims} {L : Link} {uidA uidB : UID} {A B : MemStore} (as : List DAct)
    (S : Setting P L uidA uidB (L.aPriv :: L.bPriv :: L.kPriv :: draws (as.map DAct.act)) A B)
    (hnd : (L.aPriv :: L.bPriv :: L.kPriv :: draws (as.map DAct.act)).Nodup)
    (hok : ∀ a ∈ as, a.OK P L uidA uidB) (hlen : as.length < 2 ^ 62) :
    DAgree P L [] [] ⟨[], [], [], [], false⟩ as (dtalk P L ⟨A, B, [], []⟩ as) := by
  refine S.dsteps as (Uh := []) (Us := [L.kPriv]) (.zero (by simp)) hok (by simpa using hlen)
    (by simpa using hlen) ?_
  simp only [List.nodup_cons, List.mem_cons, not_or] at hnd
  obtain ⟨⟨n1, n2, n3⟩, ⟨n4, n5⟩, n6, n7⟩ := hnd
  refine ⟨fun x h => absurd h (by simp), ?_, ?_, n1, n7⟩
  · intro x hx
    rw [List.mem_singleton] at hx; subst hx
    exact ⟨by simp, fun e => n2 e.symm, fun e => n4 e.symm, n6⟩
  · intro x hx
    exact ⟨by simp [hx], fun e => n3 (e ▸ hx), fun e => n5 (e ▸ hx)⟩

end Two
end Verif.Msg

import Verif.Msg.CrossErase
/-
C150: starting again with a peer that still has the old session.
-/
set_option autoImplicit false
namespace Verif.Msg
open Prog Two
open Wire (Outer newOuter newPre readFirst)

/-! ### Programs that do not set the session state -/

def Req.setsState : {β : Type} → Req β → Prop
  | _, .setState _ _ => True
  | _, _ => False

def NoSet {α : Type} : Prog α → Prop
  | .ret _ => True
  | .fail _ => True
  | .panic => True
  | .call r k => ¬ r.setsState ∧ ∀ b, NoSet (k b)

namespace NoSet
variable {α β : Type}

theorem bind {p : Prog α} {f : α → Prog β} (h : NoSet p) (hf : ∀ a, NoSet (f a)) :
    NoSet (p.bind f) := by
  induction p with
  | ret a => exact hf a
  | fail e => trivial
  | panic => trivial
  | call r k ih => exact ⟨h.1, fun b => ih b (h.2 b)⟩

theorem noCall {p : Prog α} (h : NoCall p) : NoSet p := by cases h <;> trivial

theorem ask {r : Req (Except SErr α)} (h : ¬ r.setsState) : NoSet (Prog.ask r) :=
  ⟨h, fun b => by cases b <;> trivial⟩

theorem try' {r : Req α} (h : ¬ r.setsState) : NoSet (Prog.try' r) := ⟨h, fun _ => trivial⟩

theorem run (P : Prims) {p : Prog α} (h : NoSet p) (st : MemStore) :
    (p.run (MemStore.handle P) st).2.states = st.states := by
  induction p generalizing st with
  | ret a => rfl
  | fail e => rfl
  | panic => rfl
  | call r k ih =>
    rw [run_call]
    refine (ih _ (h.2 _) _).trans ?_
    have h1 := h.1
    cases r <;> try rfl
    · exact absurd trivial h1
    · simp only [MemStore.handle, MemStore.storeSession]
      split
      · rfl
      · split <;> rfl
    · simp only [MemStore.handle, MemStore.delMessageKey]
      split
      · rfl
      · split <;> rfl
    · simp only [MemStore.handle, MemStore.delPrivSessionKey]
      split <;> rfl

end NoSet

/-- Discharge `NoSet p` for programs made of parts that are known. -/
macro "noset" : tactic => `(tactic| repeat' first
  | exact NoSet.noCall (Prog.NoCall.ret _)
  | exact NoSet.noCall (Prog.NoCall.fail _)
  | exact NoSet.noCall (NoCall.failIf _ _)
  | exact NoSet.noCall (NoCall.orPanic _)
  | exact NoSet.noCall (NoCall.wire _)
  | exact NoSet.noCall (noCall_readPacket _ _ _ _)
  | exact NoSet.noCall (noCall_checkKeys _ _ _ _ _)
  | exact NoSet.noCall (noCall_ecdh _ _ _ _)
  | assumption
  | exact NoSet.ask (fun h => h)
  | exact NoSet.try' (fun h => h)
  | (refine NoSet.bind ?_ (fun _ => ?_))
  | trivial
  | split)

section
variable (P : Prims)

theorem noset_generate (a b c d : Str) (e : Bytes) (f : Bool) (g i : Bytes) (n : UInt64) :
    NoSet (generateMessageKeys P a b c d e f g i n) := by
  unfold generateMessageKeys
  exact NoSet.ask (fun h => h)

theorem noset_rkaRecipient (a : Bytes) (b c : Str) (d e f g : KeyEntry) (i : Option Bytes) (n : UInt64) :
    NoSet (rootKeyAgreementRecipient P a b c d e f g i n) := by
  unfold rootKeyAgreementRecipient
  simp only [bind_eq]
  repeat first
    | exact noset_generate P _ _ _ _ _ _ _ _ _
    | refine NoSet.bind (by noset) (fun _ => ?_)

theorem noset_getKey (h : Str) : NoSet (getSessionKey P h) := by
  unfold getSessionKey
  simp only [bind_eq]
  noset

theorem noset_decExtend (n : UInt64) (u : UID) (h : Header) (k : Str) (ss : Option State) :
    NoSet (decExtend P n u h k ss) := by
  unfold decExtend
  simp only [bind_eq]
  repeat' first
    | exact NoSet.noCall (Prog.NoCall.ret _)
    | exact NoSet.noCall (Prog.NoCall.fail _)
    | exact NoSet.noCall (NoCall.failIf _ _)
    | exact NoSet.noCall (NoCall.orPanic _)
    | exact noset_generate P _ _ _ _ _ _ _ _ _
    | exact noset_getKey P _
    | exact NoSet.ask (fun h => h)
    | exact NoSet.try' (fun h => h)
    | (refine NoSet.bind ?_ (fun _ => ?_))
    | split

theorem noset_decBody (mk : Bytes) (s : Str) (r : Bytes) : NoSet (decBody P mk s r) := by
  unfold decBody
  simp only [bind_eq]
  noset

/-- With a state that is not given up, an unknown session changes no state. -/
theorem noset_decUnknown (a : DecArgs) (n : UInt64) (hp : Bytes) (u : UID) (h : Header) (k sk : Str)
    {s : State} (hs : (s.keyInitSession && decide (h.senderIdentity < u.identity)) = false) :
    NoSet (decUnknown P a n hp u h k sk (some s)) := by
  unfold decUnknown
  simp only [bind_eq, hs, Bool.false_eq_true, if_false]
  refine NoSet.bind (by noset) fun r => ?_
  repeat' first
    | exact NoSet.noCall (Prog.NoCall.ret _)
    | exact NoSet.noCall (Prog.NoCall.fail _)
    | exact noset_rkaRecipient P _ _ _ _ _ _ _ _ _
    | (refine NoSet.bind ?_ (fun _ => ?_))
    | split

theorem decrypt_states (a : DecArgs) (st : MemStore) {hp : Bytes} {u : UID} {h : Header} {r : Bytes}
    (hd : (decHead P a).out = .ok (hp, u, h, r)) {rp sp : Bytes} (hrp : u.pubKey.pub32 P = some rp)
    (hsp : h.senderIdentityPub.pub32 P = some sp) {s : State}
    (hst : st.states (calcStateKey P rp sp) = some s)
    (hs : (s.keyInitSession && decide (h.senderIdentity < u.identity)) = false)
    (hnew : st.sessions (decSessionKey P u h) = none) :
    ((decrypt P a).run (MemStore.handle P) st).2.states = st.states := by
  unfold decrypt
  simp only [bind_eq]
  rw [run_bind_of_ok (a := (hp, u, h, r)) (s1 := st) _ (by rw [(noCall_decHead P a).run, hd])]
  simp only
  have e : ∀ n, (decSession P a n hp u h).run (MemStore.handle P) st =
      (decUnknown P a n hp u h (calcStateKey P rp sp) (decSessionKey P u h) (some s)).run
        (MemStore.handle P) st := by
    intro n
    unfold decSession
    simp only [bind_eq, hrp, hsp, orPanic, ret_bind]
    rw [run_bind_of_ok (a := some s) (s1 := st) _ (by
      rw [run_ask_ok]; simp only [MemStore.handle, hst])]
    rw [run_bind_of_ok (a := false) (s1 := st) _ (by
      rw [run_try'_ok]; simp only [MemStore.handle, MemStore.hasSession, hnew]; exact ⟨rfl, trivial⟩)]
    rfl
  rw [run_bind, e, ← run_bind]
  refine NoSet.run P ?_ st
  refine NoSet.bind (noset_decUnknown P _ _ _ _ _ _ _ hs) fun ss =>
    NoSet.bind (noset_decExtend P _ _ _ _ _) fun _ => NoSet.bind (NoSet.ask (fun h => h)) fun mk =>
      NoSet.bind (noset_decBody P _ _ _) fun _ => NoSet.bind (NoSet.ask (fun h => h)) fun _ => ?_
  noset

/-- A message of a session that is unknown, for a KeyInit that is unknown, is refused and changes
nothing. -/
theorem decrypt_refused (a : DecArgs) (st : MemStore) {hp : Bytes} {u : UID} {h : Header} {r : Bytes}
    (hd : (decHead P a).out = .ok (hp, u, h, r))
    (hnew : st.sessions (decSessionKey P u h) = none) (hpr : st.privs h.recipientTempHash = none) :
    ∃ x, (decrypt P a).run (MemStore.handle P) st = (x, st) ∧ ∀ y, x ≠ .ok y := by
  unfold decrypt
  simp only [bind_eq]
  rw [run_bind_of_ok (a := (hp, u, h, r)) (s1 := st) _ (by rw [(noCall_decHead P a).run, hd])]
  simp only
  have e : ∀ n, ∃ x, (decSession P a n hp u h).run (MemStore.handle P) st = (x, st) := by
    intro n
    unfold decSession
    simp only [bind_eq]
    cases h1 : u.pubKey.pub32 P with
    | none => exact ⟨_, rfl⟩
    | some rp =>
    cases h2 : h.senderIdentityPub.pub32 P with
    | none => exact ⟨_, rfl⟩
    | some sp =>
    simp only [orPanic, ret_bind]
    rw [run_bind_of_ok (a := st.states (calcStateKey P rp sp)) (s1 := st) _ (by
      rw [run_ask_ok]; rfl)]
    rw [run_bind_of_ok (a := false) (s1 := st) _ (by
      rw [run_try'_ok]; simp only [MemStore.handle, MemStore.hasSession, hnew]; exact ⟨rfl, trivial⟩)]
    simp only [Bool.false_eq_true, if_false]
    unfold decUnknown
    simp only [bind_eq]
    rw [run_bind_of_ok (a := .error .noKeyEntry) (s1 := st) _ (by
      rw [run_try'_ok]; simp only [MemStore.handle, MemStore.getPrivateKeyEntry, hpr]; exact ⟨trivial, trivial⟩)]
    exact ⟨_, rfl⟩
  obtain ⟨x, hx⟩ := e (if a.numOfKeys = 0 then numOfFutureKeys else a.numOfKeys)
  rw [run_bind, hx]
  cases x with
  | err e => exact ⟨_, rfl, by intro y hy; cases hy⟩
  | panic => exact ⟨_, rfl, by intro y hy; cases hy⟩
  | ok ss =>
    simp only
    unfold decExtend
    simp only [bind_eq]
    rw [run_bind, run_bind, run_ask]
    simp only [MemStore.handle, MemStore.numMessageKeys, hnew]
    exact ⟨_, rfl, by intro y hy; cases hy⟩

end

/-! ### The messages -/

section
variable {P : Prims} (hP : P.Good)
include hP

theorem decHead_bad (rnd : Rnd) (hr : rnd.Good) (h : Header)
    (hlen : (P.marshal h).length = 7152) (hparse : P.parse (P.marshal h) = some h)
    (hv : h.verify P = false) (bob : UID) (bPriv : Bytes) (hb : bob.pubKey = initDHKey P bPriv)
    (body : Bytes) (n : UInt64) (fresh : Bytes) :
    (decHead P ⟨[bob], (newPre (P.dhPub rnd.headerPriv)).write,
        (newOuter Wire.encryptedHeader 1 (rnd.nonce ++ be16 7168 ++
          P.boxSeal (P.marshal h) rnd.nonce (P.dhPub bPriv) rnd.headerPriv)).write true ++ body,
        n, fresh⟩).out = .err .keyEntry := by
  have hpre := Wire.readPre_write (P.dhPub rnd.headerPriv) [] (by rw [hP.dhPub_len]; omega)
  rw [List.append_nil] at hpre
  have hrun : (decHead P ⟨[bob], (newPre (P.dhPub rnd.headerPriv)).write,
        (newOuter Wire.encryptedHeader 1 (rnd.nonce ++ be16 7168 ++
          P.boxSeal (P.marshal h) rnd.nonce (P.dhPub bPriv) rnd.headerPriv)).write true ++ body,
        n, fresh⟩).run (MemStore.handle P) MemStore.new =
      (.err .keyEntry, MemStore.new) := by
    unfold decHead
    simp only [bind_eq]
    rw [run_bind_of_ok (a := (newPre (P.dhPub rnd.headerPriv), [])) (s1 := MemStore.new) _
      (by rw [run_wire_ok]; exact ⟨hpre, rfl⟩)]
    have hl : (newPre (P.dhPub rnd.headerPriv)).lenPub = 32 := by
      simp only [newPre, hP.dhPub_len]; rfl
    simp only [hl, ne_eq, not_true_eq_false, decide_false, failIf, Bool.false_eq_true, if_false,
      ret_bind]
    have hbox := hP.box_len (P.marshal h) rnd.nonce (P.dhPub bPriv) rnd.headerPriv
    rw [hlen] at hbox
    rw [run_bind_of_ok _ (run_readPacket (MemStore.handle P) (newOuter Wire.encryptedHeader 1
      (rnd.nonce ++ be16 7168 ++ P.boxSeal (P.marshal h) rnd.nonce (P.dhPub bPriv)
        rnd.headerPriv)) Wire.encryptedHeader .notEncryptedHeader 1 body MemStore.new rfl rfl rfl (by
      simp only [newOuter]
      refine Wire.u16_len ?_
      simp only [List.length_append, hr.nonce_len, Wire.be16_length, hbox]; omega))]
    have hrd : (readHeader P (newPre (P.dhPub rnd.headerPriv)).pub [bob]
        (newOuter Wire.encryptedHeader 1 (rnd.nonce ++ be16 7168 ++
          P.boxSeal (P.marshal h) rnd.nonce (P.dhPub bPriv) rnd.headerPriv)).inner).run
          (MemStore.handle P) MemStore.new = (.err .keyEntry, MemStore.new) := by
      unfold readHeader
      simp only [bind_eq, newOuter, List.append_assoc, newPre]
      rw [Wire.readN_append' _ _ hr.nonce_len.symm]
      simp only [Prog.wire, ret_bind, Wire.read16_be16]
      have e : Wire.readN (7168 : UInt16).toNat
          (P.boxSeal (P.marshal h) rnd.nonce (P.dhPub bPriv) rnd.headerPriv) =
          .ok (P.boxSeal (P.marshal h) rnd.nonce (P.dhPub bPriv) rnd.headerPriv, []) := by
        have := Wire.readN_append' (n := (7168 : UInt16).toNat)
          (P.boxSeal (P.marshal h) rnd.nonce (P.dhPub bPriv) rnd.headerPriv) []
          (by rw [hbox]; rfl)
        rwa [List.append_nil] at this
      simp only [e, ret_bind, tryOpen, bind_eq, hb, initDHKey_priv32, orPanic, hP.box, hparse,
        failIf, hv, Bool.not_false, if_true]
      rfl
    rw [run_bind, hrd]
  rw [(noCall_decHead P _).run] at hrun
  exact (Prod.mk.inj hrun).1

/-- A message that was written, and what the writing did. -/
theorem sendStep_inv {L : Link} {uid : UID} (hL : L.OK P uid) {r : Round} (hr : r.OK P uid)
    {A A' : MemStore} {w : Str} (h : sendStep P L r A = (some w, A')) :
    ∃ ss nym A1 mk, (encSession P (L.encArgs r) r.rnd (effKeys L.nA) (L.stateKeyA P)).run
        (MemStore.handle P) A = (.ok (ss, nym), A1) ∧
      (P.marshal (mkHeader (L.encArgs r) r.rnd ss)).length = 7152 ∧
      w = P.b64 (messageBytes P r.rnd (mkHeader (L.encArgs r) r.rnd ss) (P.dhPub L.bPriv) mk r.sigKey
        r.content) ∧
      A'.states (L.stateKeyA P) = some { ss with senderMessageCount := ss.senderMessageCount + 1 } := by
  unfold sendStep at h
  split at h
  case h_2 => cases h
  case h_1 nym A1 e =>
    obtain ⟨fp, tp, ss, rp, A1, A2, A3, mk, e1, e2, e3, e4, e5, e6, e7, e8, e9, rfl⟩ :=
      encrypt_ok hP hr.rnd rfl e
    have h1 : fp = P.dhPub L.aPriv := by
      have : (L.encArgs r).from.pubKey = initDHKey P L.aPriv := hL.a
      rw [this, initDHKey_pub32 P hP] at e1; exact (Option.some.inj e1).symm
    have h2 : tp = P.dhPub L.bPriv := by
      have : (L.encArgs r).to.pubKey = (initDHKey P L.bPriv).public := by
        simp only [Link.encArgs, hL.b]
      rw [this, initDHKey_public_pub32 P hP] at e2; exact (Option.some.inj e2).symm
    have h3 : rp = P.dhPub L.bPriv := by
      have : (L.encArgs r).to.pubKey = (initDHKey P L.bPriv).public := by
        simp only [Link.encArgs, hL.b]
      rw [this] at e3
      simp only [initDHKey, KeyEntry.public, hP.unb64_b64] at e3
      exact (Option.some.inj e3).symm
    subst h1 h2 h3
    refine ⟨ss, nym, A1, mk, e4, e5, ?_, ?_⟩
    · have oA1 : A1.out = A.out := by
        have := run_out P (quiet_noWrite (quiet_encSession P (L.encArgs r) r.rnd (effKeys L.nA)
          (L.stateKeyA P))) A
        rw [show (encSession P (L.encArgs r) r.rnd (effKeys L.nA) (L.stateKeyA P)).run
          (MemStore.handle P) A = _ from e4] at this; exact this
      have oA2 : A2.out = A1.out := by
        have := run_out P (quiet_noWrite (quiet_encExtend P (L.encArgs r) (effKeys L.nA) ss
          (encSessionKey P (L.encArgs r) ss))) A1
        rw [show (encExtend P (L.encArgs r) (effKeys L.nA) ss (encSessionKey P (L.encArgs r) ss)).run
          (MemStore.handle P) A1 = _ from e6] at this; exact this
      have oA3 := congrArg (fun q => q.2.out) e9
      have : ∀ (st : MemStore) (k : Str) (b : Bool) (i : UInt64), (st.delMessageKey k b i).2.out = st.out := by
        intro st k b i
        unfold MemStore.delMessageKey
        split
        · rfl
        · split <;> rfl
      simp only [this] at oA3
      have hw := (Prod.mk.inj h).1
      rw [← Option.some.inj hw]
      show A3.out.drop _ = _
      rw [← oA3]
      show (A2.out ++ _).drop _ = _
      rw [oA2, oA1, List.drop_left]; rfl
    · rw [← (Prod.mk.inj h).2]; exact upd_same _ _ _

/-- Opening such a message. -/
theorem openStep_message {L : Link} (r : Round) (h : Header) (mk : Bytes) (fresh : Bytes) (B : MemStore) :
    openStep P L fresh (P.b64 (messageBytes P r.rnd h (P.dhPub L.bPriv) mk r.sigKey r.content)) B =
      match (decrypt P ⟨[L.bob], (newPre (P.dhPub r.rnd.headerPriv)).write,
        (newOuter Wire.encryptedHeader 1 (r.rnd.nonce ++ be16 7168 ++
          P.boxSeal (P.marshal h) r.rnd.nonce (P.dhPub L.bPriv) r.rnd.headerPriv)).write true ++
          encBody P mk r.rnd r.sigKey r.content,
        L.nB, fresh⟩).run (MemStore.handle P) B with
      | (.ok (sender, sig), B') => (some (B'.out.drop B.out.length, sender, sig), B')
      | (_, B') => (none, B') := by
  unfold openStep messageBytes
  rw [hP.unb64_b64]
  simp only
  rw [List.append_assoc, show Wire.preHeaderPacket = 1 from rfl,
    Wire.C04_first_roundtrip _ _ (by rw [hP.dhPub_len]; omega)]
  all_goals rfl

end

/-! ### The specification -/

/-- The user sends the messages `rs` one after the other; `none` if Encrypt fails. -/
def writeAll (P : Prims) (L : Link) : List Round → MemStore → Option (List Str)
  | [], _ => some []
  | r :: rs, A =>
    match sendStep P L r A with
    | (some w, A') => (writeAll P L rs A').map (w :: ·)
    | _ => none

/-! ### Proof -/

theorem encSession_kept {P : Prims} {L : Link} {r : Round} {A A1 : MemStore} {ss ss' : State} {nym : Str}
    (hst : A.states (L.stateKeyA P) = some ss)
    (h : (encSession P (L.encArgs r) r.rnd (effKeys L.nA) (L.stateKeyA P)).run (MemStore.handle P) A =
      (.ok (ss', nym), A1)) :
    ss'.senderSessionPub = ss.senderSessionPub ∧ ss'.recipientTemp = ss.recipientTemp := by
  unfold encSession at h
  simp only [bind_eq] at h
  rw [if_pos (by show statusOK ≠ _; decide)] at h
  rw [run_bind_of_ok (a := some ss) (s1 := A) _ (by
    rw [run_ask_ok]; simp only [MemStore.handle, hst])] at h
  simp only at h
  rw [if_pos (by show statusOK ≠ _; decide)] at h
  split at h
  · rw [run_bind_ok] at h; obtain ⟨⟨s1, ke⟩, A2, h1, h⟩ := h
    simp only [run_ret, Prod.mk.injEq, Res.ok.injEq] at h
    obtain ⟨⟨rfl, -⟩, -⟩ := h
    unfold setNextSenderSessionPub at h1
    simp only [bind_eq] at h1
    rw [run_bind_ok] at h1; obtain ⟨_, A3, -, h1⟩ := h1
    rw [run_bind_ok] at h1; obtain ⟨_, A4, -, h1⟩ := h1
    simp only [run_ret, Prod.mk.injEq, Res.ok.injEq] at h1
    obtain ⟨⟨rfl, -⟩, -⟩ := h1
    exact ⟨rfl, rfl⟩
  · simp only [run_ret, Prod.mk.injEq, Res.ok.injEq] at h
    obtain ⟨⟨rfl, -⟩, -⟩ := h
    exact ⟨rfl, rfl⟩

theorem encSession_new {P : Prims} {L : Link} {r : Round} {A A1 : MemStore} {ss' : State} {nym : Str}
    (hst : A.states (L.stateKeyA P) = none)
    (h : (encSession P (L.encArgs r) r.rnd (effKeys L.nA) (L.stateKeyA P)).run (MemStore.handle P) A =
      (.ok (ss', nym), A1)) :
    ss'.senderSessionPub = initDHKey P r.rnd.sessPriv ∧ A.pubs L.bob.identity = some ss'.recipientTemp := by
  unfold encSession at h
  simp only [bind_eq] at h
  rw [if_pos (by show statusOK ≠ _; decide)] at h
  rw [run_bind_of_ok (a := none) (s1 := A) _ (by
    rw [run_ask_ok]; simp only [MemStore.handle, hst])] at h
  simp only at h
  rw [run_bind_ok] at h; obtain ⟨⟨rt, ny⟩, s1, g1, h⟩ := h
  rw [run_ask_ok] at g1
  rw [run_bind_ok] at h; obtain ⟨_, s2, -, h⟩ := h
  rw [run_bind_ok] at h; obtain ⟨_, s3, -, h⟩ := h
  rw [run_bind_ok] at h; obtain ⟨_, s4, -, h⟩ := h
  simp only [run_ret, Prod.mk.injEq, Res.ok.injEq] at h
  obtain ⟨⟨rfl, -⟩, -⟩ := h
  refine ⟨rfl, ?_⟩
  simp only [MemStore.handle, MemStore.getPublicKeyEntry] at g1
  change A.pubs (L.encArgs r).to.identity = _
  cases hp : A.pubs (L.encArgs r).to.identity with
  | none => rw [hp] at g1; simp at g1
  | some ki => rw [hp] at g1; simp at g1; rw [g1.1.1]

/-- The answers of a user whose state names the session with the keys `o` (own) and `p` (peer). -/
theorem answers_refused {P : Prims} (hP : P.Good) {L : Link} {uid : UID} (hL : L.OK P uid)
    (hparse : ∀ h : Header, h.Clean → (P.marshal h).length = 7152 → P.parse (P.marshal h) = some h)
    {B : MemStore} {o p : KeyEntry} (hpr : B.privs p.hash = none)
    (hB : B.sessions (calcKey P (keyHash P L.bPriv) (keyHash P L.aPriv) p.hash o.hash) = none) :
    ∀ (rs : List Round) {A : MemStore} {ss : State} {ws : List Str}, (∀ r ∈ rs, r.OK P uid) →
      A.states (L.stateKeyA P) = some ss → ss.senderSessionPub = o → ss.recipientTemp = p →
      writeAll P L rs A = some ws → ∀ m ∈ ws, ∀ f, openStep P L f m B = (none, B) := by
  intro rs
  induction rs with
  | nil => intro A ss ws _ _ _ _ h m hm; cases h; cases hm
  | cons r rs ih =>
    intro A ss ws hrs hst ho hp h m hm f
    simp only [writeAll] at h
    split at h
    case h_2 => cases h
    case h_1 w A' hw =>
      obtain ⟨ws', hws, rfl⟩ := Option.map_eq_some_iff.mp h
      obtain ⟨ss', nym, A1, mk, e1, e2, rfl, e4⟩ := sendStep_inv hP hL (hrs r (by simp)) hw
      obtain ⟨k1, k2⟩ := encSession_kept hst e1
      simp only [List.mem_cons] at hm
      rcases hm with rfl | hm
      · rw [openStep_message hP]
        have hpar := hparse _ (mkHeader_clean (L.encArgs r) r.rnd ss') e2
        cases hv : (mkHeader (L.encArgs r) r.rnd ss').verify P with
        | false =>
          have hd := decHead_bad hP r.rnd (hrs r (by simp)).rnd _ e2 hpar hv L.bob L.bPriv hL.b
            (encBody P mk r.rnd r.sigKey r.content) L.nB f
          have : ∀ (a : DecArgs), (decHead P a).out = .err .keyEntry →
              (decrypt P a).run (MemStore.handle P) B = (.err .keyEntry, B) := by
            intro a ha
            unfold decrypt
            simp only [bind_eq]
            rw [run_bind, (noCall_decHead P a).run, ha]
          rw [this _ hd]
        | true =>
          have hd := decHead_message P hP r.rnd (hrs r (by simp)).rnd _ e2 hpar hv L.bob L.bPriv hL.b
            (encBody P mk r.rnd r.sigKey r.content) L.nB f
          obtain ⟨x, hx, hne⟩ := decrypt_refused P _ B hd (by
            rw [← hB]
            simp only [decSessionKey, mkHeader, Link.encArgs, hL.a, hL.b, k1, k2, ho, hp]
            rfl) (by
            show B.privs ss'.recipientTemp.hash = none
            rw [k2, hp]; exact hpr)
          rw [hx]
          cases x with
          | err e => rfl
          | panic => rfl
          | ok y => exact absurd rfl (hne y)
      · exact ih (fun r hr => hrs r (by simp [hr])) e4 (k1.trans ho) (k2.trans hp) hws m hm f

/-! ### The property -/

/-- C150. DISAGREES WITH THE CODE. Alice has a session with Bob, started by Bob or by Alice with the
smaller identity. Bob has lost the store and writes to Alice again, who opens the message or refuses it.
Alice's state is what it was; Bob can open none of the messages Alice then writes, and still has the same store
afterwards. -/
theorem C150_restart_violated {P : Prims} (hP : P.Good) {L : Link} {uidA uidB : UID} (hL : L.OK P uidA)
    (hLB : L.flip.OK P uidB)
    (hparse : ∀ h : Header, h.Clean → (P.marshal h).length = 7152 → P.parse (P.marshal h) = some h)
    {A : MemStore} {ss : State} (hst : A.states (L.stateKeyA P) = some ss)
    (hkeep : ss.keyInitSession = false ∨ ¬ L.bob.identity < L.alice.identity)
    {B B1 : MemStore} {r : Round} {w : Str} (hr : r.OK P uidB)
    (hlost : B.states (L.stateKeyB P) = none) (hpriv : B.privs ss.recipientTemp.hash = none)
    (hw : sendStep P L.flip r B = (some w, B1))
    (hold : B1.sessions (calcKey P (keyHash P L.bPriv) (keyHash P L.aPriv) ss.recipientTemp.hash
      ss.senderSessionPub.hash) = none)
    (hnew : ∀ ki, B.pubs L.alice.identity = some ki →
      A.sessions (calcKey P (keyHash P L.aPriv) (keyHash P L.bPriv) ki.hash
        (keyHash P r.rnd.sessPriv)) = none)
    {fresh : Bytes} {got : Option (Bytes × Str × Str)} {A1 : MemStore}
    (ho : openStep P L.flip fresh w A = (got, A1))
    {rs : List Round} (hrs : ∀ r ∈ rs, r.OK P uidA) {ws : List Str} (hws : writeAll P L rs A1 = some ws) :
    A1.states = A.states ∧ ∀ m ∈ ws, ∀ f, openStep P L f m B1 = (none, B1) := by
  obtain ⟨s1, nym, B2, mk, e1, e2, rfl, e4⟩ := sendStep_inv hP hLB hr hw
  obtain ⟨k1, k2⟩ := encSession_new (L := L.flip) hlost e1
  have hpar := hparse _ (mkHeader_clean (L.flip.encArgs r) r.rnd s1) e2
  rw [openStep_message hP] at ho
  have hA1 : A1.states = A.states := by
    cases hv : (mkHeader (L.flip.encArgs r) r.rnd s1).verify P with
    | false =>
      have hd := decHead_bad hP r.rnd hr.rnd _ e2 hpar hv L.flip.bob L.flip.bPriv hLB.b
        (encBody P mk r.rnd r.sigKey r.content) L.flip.nB fresh
      have : ∀ (a : DecArgs), (decHead P a).out = .err .keyEntry →
          (decrypt P a).run (MemStore.handle P) A = (.err .keyEntry, A) := by
        intro a ha
        unfold decrypt
        simp only [bind_eq]
        rw [run_bind, (noCall_decHead P a).run, ha]
      rw [this _ hd] at ho
      cases ho
      rfl
    | true =>
      have hd := decHead_message P hP r.rnd hr.rnd _ e2 hpar hv L.flip.bob L.flip.bPriv hLB.b
        (encBody P mk r.rnd r.sigKey r.content) L.flip.nB fresh
      have := decrypt_states P _ A hd (rp := P.dhPub L.aPriv) (sp := P.dhPub L.bPriv)
        (by rw [hLB.b]; exact initDHKey_pub32 P hP _)
        (by
          show L.flip.alice.pubKey.public.pub32 P = _
          rw [hLB.a]; exact initDHKey_public_pub32 P hP _) hst
        (by
          show (ss.keyInitSession && decide (L.bob.identity < L.alice.identity)) = false
          rcases hkeep with h | h <;> simp [h])
        (by
          rw [← hnew _ k2]
          simp only [decSessionKey, mkHeader, Link.encArgs, hLB.a, hLB.b, k1]
          rfl)
      revert ho this
      split
      · rename_i e; rw [e]; intro h1 h2; cases h1; exact h2
      · rename_i e; rw [e]; intro h1 h2; cases h1; exact h2
  refine ⟨hA1, ?_⟩
  refine answers_refused hP hL hparse (o := ss.senderSessionPub) (p := ss.recipientTemp) ?_ hold rs hrs
    (by rw [hA1]; exact hst) rfl rfl hws
  have := sendStep_privs P L.flip r B
  rw [hw] at this
  show B1.privs _ = none
  rw [show B1.privs = B.privs from this]; exact hpriv

/-- C150. DISAGREES WITH THE CODE. Decrypt is given a message with the status Reset, of a session the
store does not have, from someone the store has a session with.  The session state is what it was before,
whether Decrypt succeeds or not (doc/messages.md:183-184 has the recipient give the old session up). -/
theorem C150_reset_violated {P : Prims} {a : DecArgs} {hp : Bytes} {u : UID} {h : Header} {r : Bytes}
    (hd : (decHead P a).out = .ok (hp, u, h, r)) (_hreset : h.status = statusReset)
    {rp sp : Bytes} (hrp : u.pubKey.pub32 P = some rp) (hsp : h.senderIdentityPub.pub32 P = some sp)
    {st : MemStore} {s : State} (hst : st.states (calcStateKey P rp sp) = some s)
    (hs : s.keyInitSession = false ∨ ¬ h.senderIdentity < u.identity)
    (hnew : st.sessions (decSessionKey P u h) = none) :
    ((decrypt P a).run (MemStore.handle P) st).2.states (calcStateKey P rp sp) = some s := by
  rw [decrypt_states P a st hd hrp hsp hst (by rcases hs with h | h <;> simp [h]) hnew]
  exact hst

/-- C150. DISAGREES WITH THE CODE. Two inputs whose headers differ only in the status have the same effect
on any session store: Decrypt does not look at it. -/
theorem C150_status_violated {P : Prims} {a a' : DecArgs} {hp : Bytes} {u : UID} {h : Header} {r : Bytes}
    {s : UInt8} (hd : (decHead P a).out = .ok (hp, u, h, r))
    (hd' : (decHead P a').out = .ok (hp, u, { h with status := s }, r))
    (hn : a'.numOfKeys = a.numOfKeys) (hf : a'.fresh = a.fresh) {σ : Type}
    (store : {β : Type} → Req β → σ → β × σ) (st : σ) :
    (decrypt P a').run store st = (decrypt P a).run store st := by
  unfold decrypt
  simp only [bind_eq]
  rw [run_bind_of_ok (p := decHead P a) (a := (hp, u, h, r)) (s1 := st) _ (by
      rw [(noCall_decHead P a).run, hd]),
    run_bind_of_ok (p := decHead P a') (a := (hp, u, { h with status := s }, r)) (s1 := st) _ (by
      rw [(noCall_decHead P a').run, hd'])]
  simp only [hn, decSession, decUnknown, decKnown, decExtend, decSessionKey, hf]

/-- C150, what holds: Alice has no session with the sender, or only one that nobody answered yet and the
sender has the smaller identity. If Alice opens a message of an unknown session, Alice's state is that
session, with the sender's session key and the KeyInit key the message names. -/
theorem C150_followed_partial {P : Prims} {a : DecArgs} {hp : Bytes} {u : UID} {h : Header} {r : Bytes}
    (hd : (decHead P a).out = .ok (hp, u, h, r)) {rp sp : Bytes} (hrp : u.pubKey.pub32 P = some rp)
    (hsp : h.senderIdentityPub.pub32 P = some sp) {st st' : MemStore} {x : Str × Str}
    (hst : ∀ s, st.states (calcStateKey P rp sp) = some s →
      s.keyInitSession = true ∧ h.senderIdentity < u.identity)
    (hnew : st.sessions (decSessionKey P u h) = none)
    (hrun : (decrypt P a).run (MemStore.handle P) st = (.ok x, st')) :
    ∃ s ki, st'.states (calcStateKey P rp sp) = some s ∧ st.privs h.recipientTempHash = some ki ∧
      s.recipientTemp = h.senderSessionPub ∧ s.senderSessionPub = ki ∧ s.keyInitSession = false ∧
      s.senderMessageCount = 0 := by
  cases hk : st.privs h.recipientTempHash with
  | none =>
    obtain ⟨y, hy, hne⟩ := decrypt_refused P a st hd hnew hk
    rw [hy] at hrun
    exact absurd (Prod.mk.inj hrun).1 (hne x)
  | some ki =>
  unfold decrypt at hrun
  simp only [bind_eq] at hrun
  rw [run_bind_of_ok (a := (hp, u, h, r)) (s1 := st) _ (by rw [(noCall_decHead P a).run, hd])] at hrun
  simp only at hrun
  rw [run_bind_ok] at hrun; obtain ⟨ss, s1, h1, hrun⟩ := hrun
  have hs : st'.states = s1.states := by
    refine (congrArg (fun q => q.2.states) hrun).symm.trans (NoSet.run P ?_ s1)
    refine NoSet.bind (noset_decExtend P _ _ _ _ _) fun _ => NoSet.bind (NoSet.ask (fun h => h))
      fun mk => NoSet.bind (noset_decBody P _ _ _) fun _ => NoSet.bind (NoSet.ask (fun h => h)) fun _ =>
        NoSet.noCall (Prog.NoCall.ret _)
  unfold decSession at h1
  simp only [bind_eq, hrp, hsp, orPanic, ret_bind] at h1
  rw [run_bind_of_ok (a := st.states (calcStateKey P rp sp)) (s1 := st) _ (by
      rw [run_ask_ok]; rfl)] at h1
  rw [run_bind_of_ok (a := false) (s1 := st) _ (by
      rw [run_try'_ok]; simp only [MemStore.handle, MemStore.hasSession, hnew]; exact ⟨rfl, trivial⟩)] at h1
  simp only [Bool.false_eq_true, if_false] at h1
  unfold decUnknown at h1
  simp only [bind_eq] at h1
  rw [run_bind_of_ok (a := .ok ki) (s1 := st) _ (by
      rw [run_try'_ok]; simp only [MemStore.handle, MemStore.getPrivateKeyEntry, hk]; exact ⟨trivial, trivial⟩)] at h1
  simp only at h1
  rw [run_bind_ok] at h1; obtain ⟨_, s2, -, h1⟩ := h1
  cases e : st.states (calcStateKey P rp sp)
  case' none => rw [e] at h1; simp only [if_true] at h1
  case' some q =>
    rw [e] at h1
    simp only [(hst q e).1, (hst q e).2, decide_true, Bool.and_self, if_true] at h1
  all_goals
    rw [run_bind_ok] at h1; obtain ⟨_, s3, -, h1⟩ := h1
    split at h1
    · rw [run_bind_ok] at h1; obtain ⟨_, s4, -, h1⟩ := h1
      rw [run_bind_ok] at h1; obtain ⟨_, s5, -, h1⟩ := h1
      rw [run_bind_ok] at h1; obtain ⟨_, s6, h5, h1⟩ := h1
      rw [run_ask_ok] at h5
      simp only [run_ret, Prod.mk.injEq, Res.ok.injEq] at h1
      obtain ⟨-, rfl⟩ := h1
      have := (Prod.mk.inj h5).2
      exact ⟨_, ki, by rw [hs, ← this]; exact upd_same _ _ _, rfl, rfl, rfl, rfl, rfl⟩
    · simp only [ret_bind] at h1
      rw [run_bind_ok] at h1; obtain ⟨_, s6, h5, h1⟩ := h1
      rw [run_ask_ok] at h5
      simp only [run_ret, Prod.mk.injEq, Res.ok.injEq] at h1
      obtain ⟨-, rfl⟩ := h1
      have := (Prod.mk.inj h5).2
      exact ⟨_, ki, by rw [hs, ← this]; exact upd_same _ _ _, rfl, rfl, rfl, rfl, rfl⟩

namespace Two
section
variable {P : Prims} {L : Link} {k : Bytes} {uidA uidB : UID} {K : List Bytes} {A0 B0 : MemStore}

theorem First.writeAll (hP : P.Good) (hL : L.OK P uidA) (hK : Keys P L K) : ∀ (rs : List Round)
    {Uh Us ex : List Bytes} {s : Bytes} {v : View} {A : MemStore} {ra : List Rec},
    (∀ r ∈ rs, r.OK P uidA ∧ Fits P L r) → First P L k K Us ex s v A →
    Dir P L uidA Uh [firstSn P L s] v (seenOf []) ra [] → ra.length + rs.length < 2 ^ 62 →
    Draws L K Uh Us (draws (rs.map (Act.send true))) →
    ∃ ws, writeAll P L rs A = some ws ∧ ws.length = rs.length := by
  intro rs
  induction rs with
  | nil => intros; exact ⟨[], rfl, rfl⟩
  | cons r rs ih =>
    intro Uh Us ex s v A ra hr F D hlen dr
    simp only [List.length_cons] at hlen
    obtain ⟨A', v', m, e1, e2, e3, e4, e5⟩ := F.send hP hL hK (hr r (by simp)) D (by omega) dr
    obtain ⟨ws, h1, h2⟩ := ih (fun r hr' => hr r (by simp [hr'])) e3 e5
      (by simp only [List.length_append, List.length_singleton]; omega) dr.send
    refine ⟨m.wire :: ws, ?_, by simp [h2]⟩
    simp only [Verif.Msg.writeAll, e1, h1, Option.map_some]

end
end Two

/-- C150. DISAGREES WITH THE CODE. Two users have each other's KeyInit message; the one with the smaller
identity writes.  The other one has lost the store with its private keys, and makes the first contact with
the KeyInit message of the first user.  Every message is written, the first user opens what the other one
wrote, and the other one can open none of the answers. -/
theorem C150_lost_violated {P : Prims} {L : Link} {k : Bytes} {uidA uidB : UID} {A B0 B : MemStore}
    (r0 r : Round) (rs : List Round) {ds : List Bytes}
    (hds : ds = draws (.send true r0 :: .send false r :: rs.map (Act.send true)))
    (S : Contact P L k uidA uidB (L.aPriv :: L.bPriv :: L.kPriv :: k :: ds) A B0)
    (hnd : (L.aPriv :: L.bPriv :: L.kPriv :: k :: ds).Nodup)
    (hr0 : r0.OK P uidA ∧ Fits P L r0) (hr : r.OK P uidB ∧ Fits P L.flip r)
    (hrs : ∀ r ∈ rs, r.OK P uidA ∧ Fits P L r) (hlen : rs.length < 2 ^ 61)
    (hlost : B = { MemStore.new with pubs := B0.pubs }) (fresh : Bytes) :
    ∃ w0 A1 w B1 A2 ws, sendStep P L r0 A = (some w0, A1) ∧ sendStep P L.flip r B = (some w, B1) ∧
      openStep P L.flip fresh w A1 =
        (some (r.content, L.bob.identity, sigOf P r.sigKey r.content), A2) ∧
      writeAll P L rs A2 = some ws ∧ ws.length = rs.length ∧
      ∀ m ∈ ws, ∀ f, openStep P L f m B1 = (none, B1) := by
  subst hds hlost
  have dr := contact_draws hnd
  have hP := S.prims
  have hk : L.kPriv ∈ [L.kPriv, k] := by simp
  have hkA : k ∈ [L.kPriv, k] := by simp
  obtain ⟨A1, v, m0, e1, e2, e3, e4, e5⟩ := First.start hP S.a S.keysA (k := k) (ex := [k]) S.meetA.stA
      S.meetA.sessA S.meetA.pub S.privA S.newA hr0 hk hkA (by simp) dr
  have dr1 := dr.send
  have drM := dr1.symm.kp k
  obtain ⟨B1, u, m, f1, f2, f3, f4, f5⟩ := First.start hP S.okM S.keysM (k := L.kPriv) (ex := [])
    (A := { MemStore.new with pubs := B0.pubs }) rfl (fun _ _ _ _ => rfl) S.meetB.pub
    (fun x hx ke h => nomatch h) (fun x hx => rfl) ⟨hr.1, hr.2.kp k⟩
    (show k ∈ _ by simp) (by simp) (by simp) drM
  have dr2 := dr1.send
  have hs := f3.pool.sess (firstSn P (L.back k) r.rnd.sessPriv) (by simp)
  have hb : Back P L k uidB _ _ v r.rnd.sessPriv u [m] [] [] := ⟨by rw [e3.ex]; simp, f3.key, hs.1, hs.2.2, f3.cur,
      .inl ⟨by
        rw [e4]
        exact S.meetA.sessA k (by simp) r.rnd.sessPriv (by simp [draws]), rfl⟩, f5⟩
  have hpriv : A1.privs (keyHash P k) = some (initDHKey P k) := by
    have := sendStep_privs P L r0 A
    rw [e1] at this
    rw [show A1.privs = A.privs from this]
    exact S.meetB.priv
  obtain ⟨A2, v', ⟨b, rfl⟩, g2, g3⟩ := hb.open hP S.b S.keysA S.parse S.order e3.inv hpriv (by simp) dr2
    (x := 0) (m := m) rfl fresh
  have hi : m.i = 0 := by rw [f5.num 0 m rfl]; rfl
  have hn := effKeys_ne L.nA
  rcases g3 with ⟨-, g3, -⟩ | ⟨h | h, -⟩
  rotate_left
  · cases h
  · rw [hi] at h
    have : 0 < (effKeys L.nA).toNat := by
      rcases Nat.eq_zero_or_pos (effKeys L.nA).toNat with e | e
      · exact absurd (UInt64.toNat_inj.mp e) hn
      · exact e
    unfold roundUp at h
    rw [Nat.div_eq_of_lt (by omega)] at h
    omega
  have hF : First P L k _ (r.rnd.sessPriv :: r.rnd.nextPriv :: r0.rnd.sessPriv :: r0.rnd.nextPriv :: [L.kPriv, k])
      [k] r0.rnd.sessPriv { v with base := b } A2 :=
    First.more ⟨g2, e3.cur, e3.sn, e3.opened, e3.ex, e3.ki, e3.key, e3.kU, e3.away,
      ⟨e3.pool.sess, e3.pool.nv, e3.pool.nw, e3.pool.ev, e3.pool.ew⟩⟩ (fun x hx => by
        simp only [List.mem_cons] at hx ⊢; exact .inr (.inr hx))
  have hD0 : Dir P L uidA (r0.rnd.headerPriv :: []) [firstSn P L r0.rnd.sessPriv]
      { v with base := b } (seenOf []) [m0] [] :=
    e5.later ⟨fun _ _ h => h, fun _ => Nat.le_refl _, .inl ⟨rfl, fun _ h => h⟩⟩ (fun _ h => h) rfl rfl
  have hD : Dir P L uidA (r.rnd.headerPriv :: r0.rnd.headerPriv :: []) [firstSn P L r0.rnd.sessPriv]
      { v with base := b } (seenOf []) [m0] [] :=
    hD0.more (fun x hx => List.mem_cons_of_mem _ hx)
  obtain ⟨ws, w1, w2⟩ := First.writeAll hP S.a S.keysA rs hrs hF hD
    (by simp only [List.length_singleton]; omega) dr2
  rw [f2] at g3
  refine ⟨_, A1, m.wire, B1, A2, ws, e1, f1, g3, w1, w2, ?_⟩
  obtain ⟨ss, s, h1, h2, h3⟩ := e3.inv.state
  rw [e3.cur] at h1
  cases h1
  refine (C150_restart_violated hP S.a S.b S.parse h2 (.inr fun h => ?_) hr.1 (B := { MemStore.new with pubs := B0.pubs })
    rfl rfl f1 ?_ ?_ g3 (fun r hr => (hrs r hr).1) w1).2
  · exact absurd (List.lt_trans h S.order) (List.lt_irrefl _)
  · rw [h3.own, h3.peer]
    refine (f3.inv.only _ ?_).trans ?_
    · intro j s hj hs e
      have hs := List.mem_of_getElem? hs
      rw [List.mem_singleton] at hs
      subst hs
      have := (S.keysM.skey L.kPriv (by simp) r0.rnd.sessPriv (by simp [draws]) r.rnd.sessPriv
        (by simp [draws]) k (by simp) e).1
      exact (dr1.s L.kPriv (by simp)).2.2.2 (by rw [this]; simp [draws])
    · rw [f4]; rfl
  · intro ki hki
    have : B0.pubs L.alice.identity = some (initDHKey P k).public := S.meetB.pub
    rw [show B0.pubs L.alice.identity = some ki from hki] at this
    cases this
    have hx : A1.sessions (L.skey P k r.rnd.sessPriv) = none := by
      refine (e3.inv.only _ ?_).trans ?_
      · intro j s hj hs e
        have hs := List.mem_of_getElem? hs
        rw [List.mem_singleton] at hs
        subst hs
        have := (S.keysA.skey k (by simp) r.rnd.sessPriv (by simp [draws]) r0.rnd.sessPriv
          (by simp [draws]) L.kPriv (by simp) e).1
        exact (dr.s k (by simp)).2.2.2 (by rw [this]; simp [draws])
      · rw [e4]
        exact S.meetA.sessA k (by simp) r.rnd.sessPriv (by simp [draws])
    exact hx

end Verif.Msg

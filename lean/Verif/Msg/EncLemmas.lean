import Verif.Msg.EncProps
import Verif.Msg.DecLemmas
import Verif.Msg.ReceiveProps
/-
Taking successful runs of `encrypt` apart, and what Decrypt makes of its output.
-/
namespace Verif.Msg
open Prog
open Wire (Outer Inner newOuter newInner newPre readInner)

/-- The five header fields that hold key entries carry no private keys; this is
all JSON encoding loses. -/
def Header.Clean (h : Header) : Prop :=
  h.senderSessionPub.priv = none ∧ h.senderIdentityPub.priv = none ∧
  (∀ k, h.nextSenderSessionPub = some k → k.priv = none) ∧
  (∀ k, h.nextRecipientSessionPubSeen = some k → k.priv = none)

/-- The header `newHeader` builds. -/
def mkHeader (a : EncArgs) (rnd : Rnd) (ss : State) : Header :=
  let h : Header :=
    { recipientPubHash := a.to.pubKey.hash
      recipientTempHash := ss.recipientTemp.hash
      senderIdentity := a.from.identity
      senderSessionPub := ss.senderSessionPub.public
      senderIdentityPubHash := a.from.pubKey.hash
      senderIdentityPub := a.from.pubKey.public
      nextSenderSessionPub := ss.nextSenderSessionPub.map KeyEntry.public
      nextRecipientSessionPubSeen := ss.nextRecipientSessionPubSeen.map KeyEntry.public
      nymAddress := a.nymAddress
      senderSessionCount := ss.senderSessionCount
      senderMessageCount := ss.senderMessageCount
      senderUID := a.from.json
      senderLastKeychainHash := a.lastHash
      status := a.status
      padding := [] }
  { h with padding := rnd.hexPad (padLen h) }

theorem mkHeader_clean (a : EncArgs) (rnd : Rnd) (ss : State) : (mkHeader a rnd ss).Clean := by
  refine ⟨rfl, rfl, ?_, ?_⟩ <;>
  · intro k hk
    simp only [mkHeader, Option.map_eq_some_iff] at hk
    obtain ⟨x, -, rfl⟩ := hk
    rfl

theorem newHeader_ok {a : EncArgs} {rnd : Rnd} {ss : State} {h : Header} {σ : Type}
    {hd : {β : Type} → Req β → σ → β × σ} {s s' : σ}
    (hr : (newHeader a rnd ss).run hd s = (.ok h, s')) : h = mkHeader a rnd ss ∧ s = s' := by
  unfold newHeader at hr
  simp only [bind_eq, run_bind_ok, run_failIf_ok] at hr
  obtain ⟨-, s1, ⟨-, rfl⟩, -, s2, ⟨-, rfl⟩, -, s3, ⟨-, rfl⟩, -, s4, ⟨-, rfl⟩, hr⟩ := hr
  simp only [run_ret, Prod.mk.injEq, Res.ok.injEq] at hr
  exact ⟨hr.1.symm, hr.2⟩

/-- The session key `encrypt` uses. -/
def encSessionKey (P : Prims) (a : EncArgs) (ss : State) : Str :=
  calcKey P a.from.pubKey.hash a.to.pubKey.hash ss.senderSessionPub.hash ss.recipientTemp.hash

/-- The bytes of an encrypted message before base64 encoding. -/
def messageBytes (P : Prims) (rnd : Rnd) (h : Header) (rp mk : Bytes) (sk : Option Bytes)
    (content : Bytes) : Bytes :=
  (newOuter Wire.preHeaderPacket 0 (newPre (P.dhPub rnd.headerPriv)).write).write true ++
  (newOuter Wire.encryptedHeader 1
    (rnd.nonce ++ be16 7168 ++ P.boxSeal (P.marshal h) rnd.nonce rp rnd.headerPriv)).write true ++
  encBody P mk rnd sk content

/-- The store after a Write of `b`. -/
def MemStore.wrote (ms : MemStore) (b : Bytes) : MemStore := { ms with out := ms.out ++ b }

/-- The store after SetSessionState. -/
def MemStore.setState (ms : MemStore) (k : Str) (ss : State) : MemStore :=
  { ms with states := upd ms.states k (some ss) }

/-- A successful run of `encrypt` with status OK, taken apart. -/
theorem encrypt_ok {P : Prims} (hP : P.Good) {a : EncArgs} {rnd : Rnd} (hrnd : rnd.Good)
    {A A' : MemStore} {nym : Str} (hst : a.status = statusOK)
    (hr : (encrypt P a rnd).run (MemStore.handle P) A = (.ok nym, A')) :
    ∃ fp tp ss rp A1 A2 A3 mk,
      a.from.pubKey.pub32 P = some fp ∧ a.to.pubKey.pub32 P = some tp ∧
      P.unb64 a.to.pubKey.pubkey = some rp ∧
      (encSession P a rnd (effKeys a.numOfKeys) (calcStateKey P fp tp)).run (MemStore.handle P) A =
        (.ok (ss, nym), A1) ∧
      (P.marshal (mkHeader a rnd ss)).length = 7152 ∧
      (encExtend P a (effKeys a.numOfKeys) ss (encSessionKey P a ss)).run (MemStore.handle P) A1 =
        (.ok (), A2) ∧
      A2.getMessageKey P (encSessionKey P a ss) true ss.senderMessageCount = .ok mk ∧
      a.content.length ≤ maxContentLength ∧
      (A2.wrote (P.b64 (messageBytes P rnd (mkHeader a rnd ss) rp mk a.sigKey a.content))
        ).delMessageKey (encSessionKey P a ss) true ss.senderMessageCount = (.ok (), A3) ∧
      A' = A3.setState (calcStateKey P fp tp)
        { ss with senderMessageCount := ss.senderMessageCount + 1 } := by
  unfold encrypt at hr
  simp only [bind_eq] at hr
  rw [run_bind_ok] at hr; obtain ⟨fp, s0, h0, hr⟩ := hr
  rw [run_orPanic_ok] at h0; obtain ⟨h0, rfl⟩ := h0
  rw [run_bind_ok] at hr; obtain ⟨tp, s1, h1, hr⟩ := hr
  rw [run_orPanic_ok] at h1; obtain ⟨h1, rfl⟩ := h1
  rw [run_bind_ok] at hr; obtain ⟨⟨ss, ny⟩, A1, h2, hr⟩ := hr
  rw [run_bind_ok] at hr; obtain ⟨h, s2, h3, hr⟩ := hr
  obtain ⟨rfl, rfl⟩ := newHeader_ok h3
  rw [run_bind_ok] at hr; obtain ⟨rp, s3, h4, hr⟩ := hr
  have h4' : P.unb64 a.to.pubKey.pubkey = some rp ∧ A1 = s3 := by
    unfold uidPublicKey at h4
    split at h4
    · cases h4
    · split at h4
      · cases h4
      · rename_i pk hpk _
        simp only [run_ret, Prod.mk.injEq, Res.ok.injEq] at h4
        exact ⟨by rw [hpk, h4.1], h4.2⟩
  obtain ⟨h4'', rfl⟩ := h4'
  rw [run_bind_ok] at hr; obtain ⟨hpk, s4, h5, hr⟩ := hr
  have h5' : (P.marshal (mkHeader a rnd ss)).length % 65536 = 7152 ∧
      hpk = rnd.nonce ++ be16 7168 ++
        P.boxSeal (P.marshal (mkHeader a rnd ss)) rnd.nonce rp rnd.headerPriv ∧ A1 = s4 := by
    unfold headerPacket at h5; dsimp only at h5
    split at h5
    · cases h5
    · rename_i hl
      simp only [run_ret, Prod.mk.injEq, Res.ok.injEq] at h5
      have hl := Decidable.of_not_not hl
      refine ⟨?_, ?_, h5.2⟩
      · have := congrArg UInt16.toNat hl
        rw [UInt16.toNat_ofNat', hP.box_len] at this
        have e : lengthEncryptedHeader.toNat = 7168 := rfl
        omega
      · rw [← h5.1, hl]; rfl
  obtain ⟨hmod, rfl, rfl⟩ := h5'
  rw [run_bind_ok] at hr; obtain ⟨x6, A2, h6, hr⟩ := hr
  rw [run_bind_ok] at hr; obtain ⟨mk, s7, h7, hr⟩ := hr
  rw [run_ask_ok] at h7
  obtain ⟨h7', rfl⟩ := Prod.mk.inj h7
  rw [hst, if_pos rfl] at hr
  rw [run_bind_ok] at hr; obtain ⟨x8, s8, h8, hr⟩ := hr
  rw [run_failIf_ok] at h8; obtain ⟨h8, rfl⟩ := h8
  rw [run_bind_ok] at hr; obtain ⟨x9, s9, h9, hr⟩ := hr
  rw [run_failIf_ok] at h9; obtain ⟨h9, rfl⟩ := h9
  rw [run_bind_ok] at hr; obtain ⟨x10, s10, h10, hr⟩ := hr
  rw [run_try'_ok] at h10; obtain ⟨-, rfl⟩ := h10
  rw [run_bind_ok] at hr; obtain ⟨x11, A3, h11, hr⟩ := hr
  rw [run_ask_ok] at h11
  rw [run_bind_ok] at hr; obtain ⟨x12, A4, h12, hr⟩ := hr
  rw [run_ask_ok] at h12
  simp only [run_ret, Prod.mk.injEq, Res.ok.injEq] at hr
  obtain ⟨rfl, rfl⟩ := hr
  have hc : a.content.length ≤ maxContentLength := by simpa using h8
  refine ⟨fp, tp, ss, rp, A1, A2, A3, mk, h0, h1, h4'', h2, ?_, h6, h7', hc, h11, ?_⟩
  · have h9' := of_decide_eq_false h9
    have h9'' := Decidable.of_not_not h9'
    rw [hP.b64_len] at h9''
    simp only [List.length_append, pre_length P hP,
      encBody_length P hP mk rnd hrnd a.sigKey a.content hc] at h9''
    simp only [outer_length, newOuter, List.length_append, be16, hrnd.nonce_len, List.length_cons,
      List.length_nil, hP.box_len, encodedMsgSize] at h9''
    omega
  · simp only [MemStore.handle, Prod.mk.injEq] at h12
    exact h12.2.symm

/-! ### Decrypting the body -/

theorem xor_xor (x y : UInt8) : x ^^^ y ^^^ y = x := by
  rw [UInt8.xor_assoc, UInt8.xor_self, UInt8.xor_zero]

theorem ctr_ctr (P : Prims) (k iv : Bytes) (i : Nat) (x : Bytes) :
    ctr P k iv i (ctr P k iv i x) = x := by
  induction x generalizing i with
  | nil => rfl
  | cons a x ih => simp only [ctr, ih, xor_xor]

/-- The signature `decrypt` returns for a message. -/
def sigOf (P : Prims) (sk : Option Bytes) (content : Bytes) : Str :=
  match sk with
  | none => []
  | some k => P.b64 (P.sign k (P.sha512 content))

/-- `decBody` undoes `encBody`. -/
theorem decBody_encBody (P : Prims) (hP : P.Good) (mk : Bytes) (rnd : Rnd) (hr : rnd.Good)
    (sk : Option Bytes) (content : Bytes) (hc : content.length ≤ maxContentLength)
    (suid : Str) (uid : UID) (hu : P.parseUID suid = some uid)
    (hsig : ∀ k, sk = some k → uid.sigKey.pub32 P = some (P.edPub k)) (st : MemStore) :
    (decBody P mk suid (encBody P mk rnd sk content)).run (MemStore.handle P) st =
      (.ok (sigOf P sk content), st.wrote content) := by
  have hc' := hc
  unfold maxContentLength at hc'
  let ck := (deriveSymmetricKeys P mk).1
  let hk := (deriveSymmetricKeys P mk).2
  let ih : Inner := newInner (if sk.isSome then Wire.dataType ||| Wire.signType
    else Wire.dataType) false content
  let pad : Inner := newInner Wire.paddingType false (rnd.pad (match sk with
    | some _ => maxContentLength - content.length
    | none => maxContentLength + 76 - 12 + 5 - content.length))
  let ih2 : Inner := match sk with
    | some k => newInner Wire.signatureType true (P.sign k (P.sha512 content))
    | none => pad
  let rest2 : Bytes := match sk with
    | some _ => pad.write
    | none => []
  let p2 := newOuter Wire.cryptoSetup 2 rnd.iv
  let p3 := newOuter Wire.encryptedPacket 3 (ctr P ck rnd.iv 0 ih.write)
  let p4 := newOuter Wire.encryptedPacket 4 (ctr P ck rnd.iv ih.write.length (ih2.write ++ rest2))
  let oh : Outer := { newOuter Wire.hmacPacket 5 [] with plen := 64 }
  let mac := P.hmac hk (p2.write true ++ p3.write true ++ p4.write true ++ oh.write false)
  let p5 : Outer := { oh with inner := mac }
  have hih : ih.write.length = 5 + content.length := inner_length _
  have hi2 : (ih2.write ++ rest2).length = 41765 - content.length := by
    simp only [List.length_append, ih2, rest2, pad]
    cases sk <;> simp only [inner_length, newInner, hr.pad_len, hP.sign_len, List.length_nil,
      maxContentLength] <;> omega
  have hbody : encBody P mk rnd sk content = bodyBytes p2 p3 p4 p5 ++ [] := by
    simp only [encBody, bodyBytes, List.append_nil]
    cases sk
    · simp only [p2, p3, p4, p5, mac, oh, ck, hk, ih, ih2, rest2, pad, List.append_nil]
    · simp only [p2, p3, p4, p5, mac, oh, ck, hk, ih, ih2, rest2, pad]
  have H : BodyOK P mk suid p2 p3 p4 p5 ih ih2 uid (sigOf P sk content) := by
    refine ⟨?_, ?_, ?_, ?_, ?_, rfl, rfl, rfl, rfl, rfl, rfl, rfl, rfl, ?_, ?_, ?_, hu, ?_⟩
    · simp only [p2, newOuter, hr.iv_len]; rfl
    · simp only [p3, newOuter, ctr_length]; exact Wire.u16_len (by omega)
    · simp only [p4, newOuter, ctr_length]; exact Wire.u16_len (by omega)
    · simp only [p5, mac, hP.hmac_len]; rfl
    · simp only [p2, newOuter, hr.iv_len]; rfl
    · refine ⟨[], ?_⟩
      show readInner (ctr P ck rnd.iv 0 (ctr P ck rnd.iv 0 ih.write)) = _
      rw [ctr_ctr]
      have := Wire.readInner_write ih (by simp only [ih, newInner]; split <;> rfl)
        (by simp only [ih, newInner]; exact Wire.u16_len (by omega)) []
      rwa [List.append_nil] at this
    · refine ⟨rest2, ?_⟩
      show readInner (ctr P ck rnd.iv p3.inner.length
        (ctr P ck rnd.iv ih.write.length (ih2.write ++ rest2))) = _
      have : p3.inner.length = ih.write.length := ctr_length _ _ _ _ _
      rw [this, ctr_ctr]
      refine Wire.readInner_write ih2 ?_ ?_ rest2
      · simp only [ih2, pad, newInner]; cases sk <;> rfl
      · simp only [ih2, pad, newInner]
        cases sk
        · simp only [hr.pad_len]; exact Wire.u16_len (by unfold maxContentLength; omega)
        · simp only [hP.sign_len]; rfl
    · simp only [ih, newInner]; split <;> rfl
    · cases sk with
      | none =>
        have e1 : (ih.type &&& Wire.signType != 0) = false := by
          simp only [ih, newInner]; decide
        have e2 : (ih2.type &&& Wire.paddingType == 0) = false := by
          simp only [ih2, pad, newInner]; decide
        rw [if_neg (by rw [e1]; simp)]
        exact ⟨e2, rfl⟩
      | some k =>
        have e1 : (ih.type &&& Wire.signType != 0) = true := by
          simp only [ih, newInner, Option.isSome_some, if_true]; decide
        have e2 : (ih2.type &&& Wire.signatureType == 0) = false := by
          simp only [ih2, newInner]; decide
        rw [if_pos e1]
        exact ⟨e2, hP.sign_len _ _, P.edPub k, hsig k rfl, hP.sign_verify _ _, rfl⟩
  rw [hbody, decBody_run H, if_pos]
  · rfl
  · rfl

/-! ### Reading the header -/

theorem initDHKey_public_verify (P : Prims) (hP : P.Good) (x : Bytes) :
    ((initDHKey P x).public.verify P && (initDHKey P x).public.func == .ecdhe) = true := by
  simp [KeyEntry.verify, initDHKey, KeyEntry.public, hP.unb64_b64, hP.sha512_len, hP.dhPub_len]

/-- The header Decrypt finds in a message sealed for the identity with private
key `bPriv`. -/
theorem decHead_message (P : Prims) (hP : P.Good) (rnd : Rnd) (hr : rnd.Good) (h : Header)
    (hlen : (P.marshal h).length = 7152) (hparse : P.parse (P.marshal h) = some h)
    (hv : h.verify P = true) (bob : UID) (bPriv : Bytes) (hb : bob.pubKey = initDHKey P bPriv)
    (body : Bytes) (n : UInt64) (fresh : Bytes) :
    (decHead P ⟨[bob], (newPre (P.dhPub rnd.headerPriv)).write,
        (newOuter Wire.encryptedHeader 1 (rnd.nonce ++ be16 7168 ++
          P.boxSeal (P.marshal h) rnd.nonce (P.dhPub bPriv) rnd.headerPriv)).write true ++ body,
        n, fresh⟩).out =
      .ok (P.dhPub rnd.headerPriv, bob, h, body) := by
  have hpre := Wire.readPre_write (P.dhPub rnd.headerPriv) [] (by rw [hP.dhPub_len]; omega)
  rw [List.append_nil] at hpre
  have hrun : (decHead P ⟨[bob], (newPre (P.dhPub rnd.headerPriv)).write,
        (newOuter Wire.encryptedHeader 1 (rnd.nonce ++ be16 7168 ++
          P.boxSeal (P.marshal h) rnd.nonce (P.dhPub bPriv) rnd.headerPriv)).write true ++ body,
        n, fresh⟩).run (MemStore.handle P) MemStore.new =
      (.ok (P.dhPub rnd.headerPriv, bob, h, body), MemStore.new) := by
    unfold decHead
    simp only [bind_eq]
    rw [run_bind_of_ok (a := (newPre (P.dhPub rnd.headerPriv), [])) (s1 := MemStore.new) _
      (by rw [run_wire_ok]; exact ⟨hpre, rfl⟩)]
    have hl : (newPre (P.dhPub rnd.headerPriv)).lenPub = 32 := by
      simp only [newPre, hP.dhPub_len]; rfl
    simp only [hl, ne_eq, not_true_eq_false, decide_false, failIf, Bool.false_eq_true, if_false,
      ret_bind]
    have hbox := hP.box_len (P.marshal h) rnd.nonce (P.dhPub bPriv) rnd.headerPriv
    rw [hlen] at hbox
    rw [run_bind_of_ok _ (run_readPacket (MemStore.handle P) (newOuter Wire.encryptedHeader 1
      (rnd.nonce ++ be16 7168 ++ P.boxSeal (P.marshal h) rnd.nonce (P.dhPub bPriv)
        rnd.headerPriv)) Wire.encryptedHeader .notEncryptedHeader 1 body MemStore.new rfl rfl rfl (by
      simp only [newOuter]
      refine Wire.u16_len ?_
      simp only [List.length_append, hr.nonce_len, Wire.be16_length, hbox]; omega))]
    have hrd : (readHeader P (newPre (P.dhPub rnd.headerPriv)).pub [bob]
        (newOuter Wire.encryptedHeader 1 (rnd.nonce ++ be16 7168 ++
          P.boxSeal (P.marshal h) rnd.nonce (P.dhPub bPriv) rnd.headerPriv)).inner).run
          (MemStore.handle P) MemStore.new = (.ok (bob, h), MemStore.new) := by
      unfold readHeader
      simp only [bind_eq, newOuter, List.append_assoc, newPre]
      rw [Wire.readN_append' _ _ hr.nonce_len.symm]
      simp only [Prog.wire, ret_bind, Wire.read16_be16]
      have e : Wire.readN (7168 : UInt16).toNat
          (P.boxSeal (P.marshal h) rnd.nonce (P.dhPub bPriv) rnd.headerPriv) =
          .ok (P.boxSeal (P.marshal h) rnd.nonce (P.dhPub bPriv) rnd.headerPriv, []) := by
        have := Wire.readN_append' (n := (7168 : UInt16).toNat)
          (P.boxSeal (P.marshal h) rnd.nonce (P.dhPub bPriv) rnd.headerPriv) []
          (by rw [hbox]; rfl)
        rwa [List.append_nil] at this
      simp only [e, ret_bind, tryOpen, bind_eq, hb, initDHKey_priv32, orPanic, hP.box, hparse,
        failIf, hv, Bool.not_true, Bool.false_eq_true, if_false, run_ret]
    rw [run_bind_of_ok _ hrd]
    rfl
  rw [(noCall_decHead P _).run] at hrun
  exact (Prod.mk.inj hrun).1

end Verif.Msg

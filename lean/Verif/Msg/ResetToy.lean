import Verif.Msg.Reset
import Verif.Msg.CrossingToy
/-
Cases that meet the hypotheses of C150.
-/
set_option autoImplicit false
namespace Verif.Msg.Toy
open Two

/-- Alice writes; Bob, who lost the store, writes too; Alice reads it and answers twice. -/
example : ∃ w0 A1 w B1 A2 ws,
    sendStep PE linkT (roundT 10 [104, 105] true false) storeCA = (some w0, A1) ∧
    sendStep PE linkT.flip (roundT 20 [120] false true) { MemStore.new with pubs := storeCB.pubs } = (some w, B1) ∧
    openStep PE linkT.flip (tkey 51) w A1 = (some ([120], bobT.identity, []), A2) ∧
    writeAll PE linkT [roundT 31 [] true true, roundT 41 [1] true true] A2 = some ws ∧ ws.length = 2 ∧
    ∀ m ∈ ws, ∀ f, openStep PE linkT f m B1 = (none, B1) :=
  C150_lost_violated (roundT 10 [104, 105] true false) (roundT 20 [120] false true)
    [roundT 31 [] true true, roundT 41 [1] true true] rfl
    (contactT (by decide +kernel) (by decide +kernel) (by decide +kernel)) (by decide +kernel)
    ⟨roundT_ok _ _ _ _, roundT_fits linkT_ok rfl (by decide) _ _ (by decide) _ _⟩
    ⟨roundT_ok _ _ _ _, roundT_fits linkT_okB rfl (by decide) _ _ (by decide) _ _⟩
    (by
      intro r hr
      simp only [List.mem_cons, List.not_mem_nil, or_false] at hr
      rcases hr with rfl | rfl <;>
        exact ⟨roundT_ok _ _ _ _, roundT_fits linkT_ok rfl (by decide) _ _ (by decide) _ _⟩)
    (by decide) rfl (tkey 51)

/-! ### A message with another status -/

/-- An input of Decrypt with a given header. -/
theorem read_any {P : Prims} (hP : P.Good) {L : Link} {uid : UID} (hL : L.OK P uid) {r : Round} (hr : r.OK P uid)
    {h : Header} (hlen : (P.marshal h).length = 7152) (hpar : P.parse (P.marshal h) = some h)
    (hv : h.verify P = true) (n : UInt64) (f : Bytes) :
    ∃ a : DecArgs, (decHead P a).out = .ok (P.dhPub r.rnd.headerPriv, L.bob, h, [7]) ∧ a.numOfKeys = n ∧
      a.fresh = f :=
  ⟨_, decHead_message P hP r.rnd hr.rnd h hlen hpar hv L.bob L.bPriv hL.b [7] n f, rfl, rfl⟩

/-- The header of the first message of a session, with any status. -/
theorem read_first {P : Prims} (hP : P.Good) {L : Link} {uid : UID} (hL : L.OK P uid) {r : Round} (hr : r.OK P uid)
    (hparse : ∀ h : Header, h.Clean → (P.marshal h).length = 7152 → P.parse (P.marshal h) = some h)
    {ss : State} {s : Bytes} (hss : AState P L s 0 ss)
    (hlen : ∀ c : UInt8, (P.marshal { mkHeader (L.encArgs r) r.rnd ss with status := c }).length = 7152)
    (n : UInt64) (f : Bytes) :
    ∃ h : Header, h.senderIdentityPub = (initDHKey P L.aPriv).public ∧ ∀ c : UInt8, ∃ a : DecArgs,
      (decHead P a).out = .ok (P.dhPub r.rnd.headerPriv, L.bob, { h with status := c }, [7]) ∧
        a.numOfKeys = n ∧ a.fresh = f :=
  ⟨mkHeader (L.encArgs r) r.rnd ss, by
      show L.alice.pubKey.public = _
      rw [hL.a], fun c =>
    read_any hP hL hr (hlen c) (hparse _ (mkHeader_clean (L.encArgs r) r.rnd ss) (hlen c))
      (mkHeader_verify hP hL r hss) n f⟩

theorem PE_marshal (h : Header) : PE.marshal h = emarshal h := rfl

theorem status_len {h : Header} (s : UInt8) (hl : (PE.marshal h).length = 7152) :
    (PE.marshal { h with status := s }).length = 7152 := by
  rw [PE_marshal] at hl ⊢
  have e : (ehdr { h with status := s }).length = (ehdr h).length := by
    simp only [ehdr, List.length_append, lp_length, List.length_singleton]
  unfold emarshal at hl ⊢
  rw [e]
  split at hl
  · rename_i h2
    rw [if_pos h2, List.length_append, List.length_replicate, e]
    omega
  · cases hl

/-- Alice's state after starting a session with Bob's KeyInit key. -/
def stateR : State :=
  { senderSessionCount := 0, senderMessageCount := 0, maxRecipientCount := 0,
    recipientTemp := (initDHKey PE [3]).public, senderSessionPub := initDHKey PE [20, 1],
    nextSenderSessionPub := none, nextRecipientSessionPubSeen := none, nymAddress := [], keyInitSession := true }

theorem stateR_ok : AState PE linkE [20, 1] 0 stateR :=
  ⟨rfl, rfl, initDHKey_public_pub32 PE PE_good _, rfl, rfl, .inl rfl⟩

theorem headR_read : ∃ h : Header, h.senderIdentityPub = (initDHKey PE linkE.aPriv).public ∧ ∀ c : UInt8,
    ∃ (a : DecArgs), (decHead PE a).out = .ok (PE.dhPub (roundE 1 [104, 105] true).rnd.headerPriv, linkE.bob,
      { h with status := c }, [7]) ∧ a.numOfKeys = 0 ∧ a.fresh = tkey 51 := by
  have hl := (roundE_fits 1 [104, 105] (by decide) true).header [20, 1] 0 stateR stateR_ok
  exact read_first PE_good linkE_ok (roundE_ok 1 [104, 105] true) emarshal_parse stateR_ok
    (fun c => status_len c hl) 0 (tkey 51)

/-- Bob's store, with an answered session with Alice. -/
def sessR : State :=
  { senderSessionCount := 0, senderMessageCount := 4, maxRecipientCount := 0,
    recipientTemp := (initDHKey PE (tkey 12)).public, senderSessionPub := initDHKey PE (tkey 11),
    nextSenderSessionPub := none, nextRecipientSessionPubSeen := none, nymAddress := [], keyInitSession := false }
def storeR : MemStore :=
  { storeB with states := upd (fun _ => none) (linkE.stateKeyB PE) (some sessR) }

theorem stateKeyB_eq (P : Prims) (L : Link) :
    L.stateKeyB P = calcStateKey P (P.dhPub L.bPriv) (P.dhPub L.aPriv) := rfl

theorem with_state (st : MemStore) (k : Str) (s : State) :
    ({ st with states := upd (fun _ => none) k (some s) } : MemStore).states k = some s :=
  upd_same (fun _ => none) k (some s)

theorem storeR_state : storeR.states (linkE.stateKeyB PE) = some sessR := by
  unfold storeR
  rw [with_state]

/-- Alice asks Bob to reset the session: Bob keeps the old one. -/
example : ∃ a hp h r, (decHead PE a).out = .ok (hp, linkE.bob, h, r) ∧ h.status = statusReset ∧
    ((decrypt PE a).run (MemStore.handle PE) storeR).2.states (linkE.stateKeyB PE) = some sessR := by
  obtain ⟨h, h1, h2⟩ := headR_read
  obtain ⟨a, h3, -, -⟩ := h2 statusReset
  have h4 : ({ h with status := statusReset } : Header).senderIdentityPub = (initDHKey PE linkE.aPriv).public := h1
  have h5 : ({ h with status := statusReset } : Header).status = statusReset := rfl
  revert h3 h4 h5
  generalize ({ h with status := statusReset } : Header) = g
  intro h3 h4 h5
  have h6 := storeR_state
  rw [stateKeyB_eq] at h6 ⊢
  refine ⟨a, _, _, _, h3, h5, C150_reset_violated h3 h5 (rp := PE.dhPub linkE.bPriv) (sp := PE.dhPub linkE.aPriv)
    (by rw [linkE_ok.b]; exact initDHKey_pub32 PE PE_good _)
    (by rw [h4]; exact initDHKey_public_pub32 PE PE_good _)
    h6 (.inl ?_) ?_⟩
  · unfold sessR; rfl
  · unfold storeR; rfl

/-- The status of the same message makes no difference. -/
example : ∃ a a' : DecArgs, (∃ x, (decHead PE a).out = .ok x ∧ x.2.2.1.status = statusOK) ∧
    (∃ x, (decHead PE a').out = .ok x ∧ x.2.2.1.status = statusReset) ∧
    (decrypt PE a').run (MemStore.handle PE) storeR = (decrypt PE a).run (MemStore.handle PE) storeR := by
  obtain ⟨h, -, h2⟩ := headR_read
  obtain ⟨a, h1, h2', h3⟩ := h2 statusOK
  obtain ⟨a', h1', h4, h5⟩ := h2 statusReset
  exact ⟨a, a', ⟨_, h1, rfl⟩, ⟨_, h1', rfl⟩,
    C150_status_violated (h := { h with status := statusOK }) (s := statusReset) h1 h1' (h4.trans h2'.symm)
      (h5.trans h3.symm) (MemStore.handle PE) storeR⟩

/-! ### A first message is followed -/

theorem first_followed {P : Prims} (hP : P.Good) {L : Link} {uid : UID} (hL : L.OK P uid) {r : Round}
    (hr : r.OK P uid)
    (hparse : ∀ h : Header, h.Clean → (P.marshal h).length = 7152 → P.parse (P.marshal h) = some h)
    {A B : MemStore} (hS : L.Start P A B) {x : (Bytes × Str × Str) × MemStore × MemStore}
    (hx : exchange P L r A B = .ok x) :
    ∃ a st' y s, (decrypt P a).run (MemStore.handle P) B = (.ok y, st') ∧
      st'.states (L.stateKeyB P) = some s ∧ s.recipientTemp = (initDHKey P r.rnd.sessPriv).public ∧
      s.senderSessionPub = initDHKey P L.kPriv := by
  unfold exchange at hx
  split at hx
  case h_2 => cases hx
  case h_1 nym A1 he =>
    have hs : sendStep P L r A = (some (A1.out.drop A.out.length), A1) := by
      unfold sendStep; rw [he]
    obtain ⟨ss, nym', A2, mk, e1, e2, e3, -⟩ := sendStep_inv hP hL hr hs
    obtain ⟨k1, k2⟩ := encSession_new hS.stA e1
    have k2 : ss.recipientTemp = (initDHKey P L.kPriv).public := by
      rw [hS.pub] at k2
      exact (Option.some.inj k2).symm
    split at hx
    case h_2 => cases hx
    case h_1 sd sg B1 ho =>
      rw [e3] at ho
      unfold openMsg messageBytes at ho
      rw [hP.unb64_b64] at ho
      simp only at ho
      rw [List.append_assoc, show Wire.preHeaderPacket = 1 from rfl,
        Wire.C04_first_roundtrip _ _ (by rw [hP.dhPub_len]; omega)] at ho
      simp only at ho
      split at ho
      case h_2 => cases ho
      case h_1 y B2 hrun =>
        have hpar := hparse _ (mkHeader_clean (L.encArgs r) r.rnd ss) e2
        cases hv : (mkHeader (L.encArgs r) r.rnd ss).verify P with
        | false =>
          have hd := decHead_bad hP _ hr.rnd _ e2 hpar hv L.bob L.bPriv hL.b
            (encBody P mk r.rnd r.sigKey r.content) L.nB r.fresh
          unfold decrypt at hrun
          simp only [Prog.bind_eq] at hrun
          rw [Prog.run_bind, (noCall_decHead P _).run, hd] at hrun
          cases hrun
        | true =>
          have hd := decHead_message P hP _ hr.rnd _ e2 hpar hv L.bob L.bPriv hL.b
            (encBody P mk r.rnd r.sigKey r.content) L.nB r.fresh
          obtain ⟨s, ki, q1, q2, q3, q4, -⟩ := C150_followed_partial hd (rp := P.dhPub L.bPriv)
            (sp := P.dhPub L.aPriv) (by rw [hL.b]; exact initDHKey_pub32 P hP _)
            (by
              show L.alice.pubKey.public.pub32 P = _
              rw [hL.a]; exact initDHKey_public_pub32 P hP _)
            (st := B) (fun s hs => by cases hS.stB.symm.trans hs) (hS.sessB _) hrun
          refine ⟨_, _, _, s, hrun, q1, ?_, ?_⟩
          · rw [q3]
            show ss.senderSessionPub.public = _
            rw [k1]
          · have h2 : B.privs ss.recipientTemp.hash = some ki := q2
            rw [k2, show B.privs (initDHKey P L.kPriv).public.hash = _ from hS.priv] at h2
            rw [q4, Option.some.inj h2]

theorem conversation_head {P : Prims} {L : Link} {r : Round} {rs : List Round} {A B : MemStore}
    {l : List (Bytes × Str × Str)} (h : conversation P L (r :: rs) A B = .ok l) :
    ∃ x, exchange P L r A B = .ok x := by
  cases e : exchange P L r A B with
  | ok x => exact ⟨x, rfl⟩
  | error x => simp only [conversation, e] at h; cases h

/-- Bob, who has no session with Alice, follows Alice's first message. -/
example : ∃ a st' y s, (decrypt PE a).run (MemStore.handle PE) storeB = (.ok y, st') ∧
    st'.states (linkE.stateKeyB PE) = some s ∧
    s.recipientTemp = (initDHKey PE (roundE 1 [104, 105] true).rnd.sessPriv).public ∧
    s.senderSessionPub = initDHKey PE linkE.kPriv := by
  obtain ⟨x, hx⟩ := conversation_head conversationE
  exact first_followed PE_good linkE_ok (roundE_ok 1 [104, 105] true) emarshal_parse startE hx

end Verif.Msg.Toy

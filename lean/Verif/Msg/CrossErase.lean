import Verif.Msg.KeepKey
/-
C149: what the stores keep of used keys when both users make the first contact.
-/
set_option autoImplicit false
namespace Verif.Msg
open Prog
open Wire (Outer newOuter newPre readFirst)
namespace Two

/-! ### The specification (with `KeepsOnly` and `Spent` of C147) -/

/-- What someone who has the store and the identity key of the sender can compute for a message sent
with header `h` in a session that was started with the recipient's KeyInit (`bob` and `bobPub` are the
recipient's identity and identity key): the key agreement of msg/encrypt.go:27-86 and the message key
(msg/session.go:165-233). -/
def recoverSent (P : Prims) (st : MemStore) (alice : Str) (aPriv : Bytes) (bob : Str) (bobPub : Bytes)
    (h : Header) : Option Bytes :=
  match st.skeys h.senderSessionPub.hash, st.pubs bob with
  | some (_, p), some ki =>
    match P.unb64 p, ki.pub32 P with
    | some s, some k => some (senderKey P (deriveRootKey P (P.dh aPriv k) (P.dh s k) (P.dh s bobPub) none) k
        (identityFix P alice bob) h.senderMessageCount.toNat)
    | _, _ => none
  | _, _ => none

/-! ### Proof -/

theorem openStep_keeps {P : Prims} (hP : P.Good) {L : Link} {uid : UID} (hL : L.OK P uid) {r : Round}
    (hr : r.OK P uid) {s : Sn} {i : Nat} {nx sn : Option Bytes} {h : Header} (H : Hdr P L s i nx sn h)
    (hparse : P.parse (P.marshal h) = some h) (fresh : Bytes) (B : MemStore) {x : Str}
    (h1 : keyHash P fresh ≠ x) (h2 : h.recipientTempHash ≠ x) :
    (openStep P L fresh (wireOf P L r h s i) B).2.skeys x = B.skeys x := by
  have hk := decrypt_keeps P (x := x) ⟨[L.bob], (newPre (P.dhPub r.rnd.headerPriv)).write,
        (newOuter Wire.encryptedHeader 1 (r.rnd.nonce ++ be16 7168 ++
          P.boxSeal (P.marshal h) r.rnd.nonce (P.dhPub L.bPriv) r.rnd.headerPriv)).write true ++
          encBody P (senderKey P s.root (P.dhPub s.b) (L.fix P) i) r.rnd r.sigKey r.content,
        L.nB, fresh⟩ B (decHead_message P hP r.rnd hr.rnd h H.len hparse (H.verify hP) L.bob L.bPriv
          hL.b _ _ _) h1 h2
  unfold openStep wireOf messageBytes
  rw [hP.unb64_b64]
  simp only
  rw [List.append_assoc, show Wire.preHeaderPacket = 1 from rfl,
    Wire.C04_first_roundtrip _ _ (by rw [hP.dhPub_len]; omega)]
  simp only
  revert hk
  split <;> (rename_i e; rw [e]; exact id)

theorem sendStep_keeps {P : Prims} {L : Link} {r : Round} (A : MemStore) {x : Str}
    (h1 : keyHash P r.rnd.sessPriv ≠ x) (h2 : keyHash P r.rnd.nextPriv ≠ x) :
    (sendStep P L r A).2.skeys x = A.skeys x := by
  have hk := encrypt_keeps P (L.encArgs r) r.rnd A h1 h2
  unfold sendStep
  revert hk
  split <;> (rename_i e; rw [e]; exact id)

/-- The session key of the first message is stored. -/
theorem sendStep_first {P : Prims} (hP : P.Good) {L : Link} {uid : UID} (hL : L.OK P uid) {r : Round}
    (hr : r.OK P uid) {A A' : MemStore} {w : Str} (hst : A.states (L.stateKeyA P) = none)
    (h : sendStep P L r A = (some w, A')) :
    A'.skeys (keyHash P r.rnd.sessPriv) =
      some ((initDHKey P r.rnd.sessPriv).public, P.b64 r.rnd.sessPriv) := by
  unfold sendStep at h
  split at h
  case h_2 => cases h
  case h_1 nym A1 e =>
    cases h
    obtain ⟨fp, tp, ss, rp, A1, A2, A3, mk, h1, h2, h3, h4, h5, h6, h7, h8, h9, rfl⟩ := encrypt_ok hP hr.rnd rfl e
    have hkey : calcStateKey P fp tp = L.stateKeyA P := by
      rw [show (L.encArgs r).from.pubKey.pub32 P = some (P.dhPub L.aPriv) from by
        show L.alice.pubKey.pub32 P = _; rw [hL.a]; exact initDHKey_pub32 P hP _] at h1
      rw [show (L.encArgs r).to.pubKey.pub32 P = some (P.dhPub L.bPriv) from by
        show L.bob.pubKey.public.pub32 P = _; rw [hL.b]; exact initDHKey_public_pub32 P hP _] at h2
      cases h1; cases h2; rfl
    have q1 : A3.skeys = A2.skeys := by
      have := congrArg (fun q => q.2.skeys) h9
      simp only at this
      rw [← this]
      simp only [MemStore.delMessageKey]
      split
      · rfl
      · split <;> rfl
    have q2 : A2.skeys (keyHash P r.rnd.sessPriv) = A1.skeys (keyHash P r.rnd.sessPriv) := by
      have : Avoids (keyHash P r.rnd.sessPriv) (encExtend P (L.encArgs r) (effKeys (L.encArgs r).numOfKeys) ss
          (encSessionKey P (L.encArgs r) ss)) := by
        unfold encExtend
        simp only [bind_eq]
        repeat' first
          | exact Avoids.noCall (Prog.NoCall.ret _)
          | exact Avoids.noCall (Prog.NoCall.fail _)
          | exact Avoids.noCall Prog.NoCall.panic
          | exact Avoids.noCall (NoCall.failIf _ _)
          | exact Avoids.noCall (NoCall.orPanic _)
          | exact avoids_generate P _ _ _ _ _ _ _ _ _
          | exact Avoids.ask (fun h => h)
          | exact Avoids.try' (fun h => h)
          | (refine Avoids.bind ?_ (fun _ => ?_))
          | split
      have := this.run P A1
      rw [h6] at this; exact this
    show A3.skeys _ = _
    rw [q1, q2]
    rw [hkey] at h4
    unfold encSession at h4
    simp only [bind_eq] at h4
    rw [if_pos (by show statusOK ≠ _; decide)] at h4
    rw [run_bind_of_ok (a := none) (s1 := A) _ (by
      rw [run_ask_ok]; simp only [MemStore.handle, hst])] at h4
    simp only at h4
    rw [run_bind_ok] at h4; obtain ⟨⟨rt, ny⟩, s1, g1, h4⟩ := h4
    simp only [addSessionKey, bind_eq, initDHKey_priv32, orPanic, ret_bind] at h4
    rw [run_bind_of_ok (a := ()) _ (by rw [run_ask_ok]; rfl)] at h4
    rw [run_bind_ok] at h4; obtain ⟨_, s2, g2, h4⟩ := h4
    have q3 := (avoids_rkaSender (x := keyHash P r.rnd.sessPriv) P _ _ _ _ _ _ _ _ _).run P _ |>.symm.trans
      (congrArg (fun q => q.2.skeys (keyHash P r.rnd.sessPriv)) g2)
    rw [run_bind_of_ok (a := ()) _ (by rw [run_ask_ok]; rfl)] at h4
    have q4 := congrArg (fun q => q.2.skeys (keyHash P r.rnd.sessPriv)) h4
    simp only at q3 q4
    rw [← q4]
    refine q3.symm.trans (upd_same _ _ _)

section
variable {P : Prims} {L : Link} {k : Bytes} {uidA uidB : UID} {K : List Bytes} {A0 B0 : MemStore}

/-- Opening a message of the first user. -/
theorem Contact.keepOpen (S : Contact P L k uidA uidB K A0 B0) {Uh Us : List Bytes} {x : Nat} {fresh : Bytes}
    {as : List Act} (dr : Draws L K Uh Us (draws (.deliver true x fresh :: as))) {s' : Bytes} (hs' : s' ∈ Us)
    {G : List Sn} {v w : View} {ra : List Rec} {got : List Nat} (D : Dir P L uidA Uh G v w ra got)
    (hG : ∀ s ∈ G, s.b ∈ K ∧ s.b ≠ s') {m : Rec} (hm : m ∈ ra) (B : MemStore) :
    (openStep P L fresh m.wire B).2.skeys (keyHash P s') = B.skeys (keyHash P s') := by
  obtain ⟨s, h, h1, H, h3⟩ := (D.ok m hm).hdr
  have hs := hG s (List.mem_of_getElem? h1)
  have hsK := dr.s _ hs'
  rw [h3]
  refine openStep_keeps S.prims S.a (D.rok m hm).1 H (S.parse h H.clean H.len) fresh B ?_ ?_
  · intro e
    exact hsK.2.2.2 (by rw [← S.keysA.inj _ (dr.r fresh (by simp [draws])).1 _ hsK.1 e]; simp [draws])
  · rw [H.temp]
    exact fun e => hs.2 (S.keysA.inj _ hs.1 _ hsK.1 e)

theorem Contact.keep (S : Contact P L k uidA uidB K A0 B0) {Uh Us : List Bytes} {s' : Bytes} {t : Talk}
    {f : Sheet} {ra rb : List Rec} (F : Cross P L k K uidA uidB A0 B0 Uh Us (some s') t f ra rb) (a : Act)
    (as : List Act) (dr : Draws L K Uh Us (draws (a :: as))) :
    (act P L t a).1.B.skeys (keyHash P s') = t.B.skeys (keyHash P s') := by
  have hsU : s' ∈ Us := by
    cases F with
    | cross h1 h2 h3 h4 h5 => exact h5.sU
    | two h1 hvk h2 h3 =>
      rcases h2 with ⟨h, -⟩ | ⟨h, hc⟩
      · cases h
      · cases h; exact hc.back.sU
  have hsK := dr.s _ hsU
  cases a with
  | send fromA r =>
    cases fromA with
    | true =>
      simp only [act]
      split <;> rfl
    | false =>
      have := sendStep_keeps (P := P) (L := L.flip) (r := r) t.B (x := keyHash P s')
        (fun e => hsK.2.2.2 (by
          rw [← S.keysA.inj _ (dr.r r.rnd.sessPriv (by simp [draws])).1 _ hsK.1 e]; simp [draws]))
        (fun e => hsK.2.2.2 (by
          rw [← S.keysA.inj _ (dr.r r.rnd.nextPriv (by simp [draws])).1 _ hsK.1 e]; simp [draws]))
      simp only [act]
      split <;> (rename_i e; rw [e] at this; exact this)
  | deliver toB x fresh =>
    cases toB with
    | false =>
      simp only [act]
      split <;> rfl
    | true =>
      simp only [act]
      cases hw0 : t.toB[x]? with
      | none => rfl
      | some w0 =>
        simp only
        cases F with
        | @cross s v A _ _ u B _ o gotA h1 h2 h3 h4 h5 =>
          obtain ⟨m, hm, rfl⟩ := get_map hw0
          refine S.keepOpen dr hsU h2 ?_ (List.mem_of_getElem? hm) B
          intro s1 hs1
          have := (h1.inv.mem s1 hs1).2
          rw [List.mem_singleton] at hs1
          subst hs1
          exact ⟨this, fun e => h3.away.1 e.symm⟩
        | @two _ G v w A B _ rs rb gotB gotA gotM s1 u o gS h1 hvk h2 h3 =>
          rcases h2 with ⟨h, -⟩ | ⟨h, hc⟩
          · cases h
          · cases h
            obtain ⟨m, hm, rfl⟩ := get_map hw0
            refine S.keepOpen dr hsU h1.dA ?_ (List.mem_of_getElem? hm) B
            intro s2 hs2
            have q : s2.flip ∈ G.map Sn.flip := List.mem_map_of_mem hs2
            refine ⟨(h1.IA.mem s2 hs2).2, fun e => h1.IB.exd _ q ?_⟩
            rw [hc.ex]
            show s2.b ∈ _
            rw [e]; simp

theorem Free.got {P : Prims} {L : Link} {f f' : Sheet} {a : Act} {o : Out} (h : Free P L f a o f') :
    (∀ x ∈ f.gotB, x ∈ f'.gotB) ∧ (∀ x ∈ f.gotA, x ∈ f'.gotA) ∧
    (∀ x ∈ openedTo true [a] [o], x ∈ f'.gotB) ∧ (∀ x ∈ openedTo false [a] [o], x ∈ f'.gotA) := by
  cases h <;> simp [openedTo] <;> exact fun x hx => .inr hx

theorem Contact.reach (S : Contact P L k uidA uidB K A0 B0) : ∀ (as : List Act) {Uh Us : List Bytes}
    {c : Option Bytes} {t : Talk} {f : Sheet} {ra rb : List Rec},
    Cross P L k K uidA uidB A0 B0 Uh Us c t f ra rb →
    (∀ a ∈ as, a.OK P L uidA uidB) → ra.length + as.length < 2 ^ 62 → rb.length + as.length < 2 ^ 62 →
    t.A.privs = A0.privs → t.B.privs = B0.privs → Draws L K Uh Us (draws as) →
    ∃ f' ra' rb' Uh' Us' c', Cross P L k K uidA uidB A0 B0 Uh' Us' c' (after P L t as) f' ra' rb' ∧
      ra'.length < 2 ^ 62 ∧ rb'.length < 2 ^ 62 ∧
      (∀ x ∈ f.gotB, x ∈ f'.gotB) ∧ (∀ x ∈ f.gotA, x ∈ f'.gotA) ∧
      (∀ x ∈ openedTo true as (talk P L t as), x ∈ f'.gotB) ∧
      (∀ x ∈ openedTo false as (talk P L t as), x ∈ f'.gotA) ∧ Draws L K Uh' Us' [] ∧
      ∀ s', c = some s' → (after P L t as).B.skeys (keyHash P s') = t.B.skeys (keyHash P s') := by
  intro as
  induction as with
  | nil =>
    intro Uh Us c t f ra rb F _ hra hrb _ _ dr
    exact ⟨f, ra, rb, Uh, Us, c, F, by simpa using hra, by simpa using hrb, fun _ h => h, fun _ h => h,
      fun _ h => (nomatch h), fun _ h => (nomatch h), dr, fun _ _ => rfl⟩
  | cons a as ih =>
    intro Uh Us c t f ra rb F ha hra hrb hA hB dr
    rw [List.length_cons] at hra hrb
    obtain ⟨f', ra', rb', Uh', Us', c', e1, e2, e3, e4, e5, e6⟩ := S.step F a as (ha a (by simp)) (by omega)
      (by omega) hA hB dr
    obtain ⟨p1, p2⟩ := act_privs P L t a
    obtain ⟨g1, g2, g3, g4⟩ := e1.got
    obtain ⟨f2, ra2, rb2, Uh2, Us2, c2, k1, k2, k3, k4, k5, k6, k7, k9, k8⟩ := ih e2 (fun a h => ha a (by simp [h]))
      (by omega) (by omega) (p1.trans hA) (p2.trans hB) e3
    refine ⟨f2, ra2, rb2, Uh2, Us2, c2, k1, k2, k3, fun x h => k4 x (g1 x h), fun x h => k5 x (g2 x h), ?_, ?_,
      k9, ?_⟩
    · intro x hx
      rw [talk, openedTo_cons] at hx
      rcases List.mem_append.mp hx with h | h
      · exact k4 x (g3 x h)
      · exact k6 x h
    · intro x hx
      rw [talk, openedTo_cons] at hx
      rcases List.mem_append.mp hx with h | h
      · exact k5 x (g4 x h)
      · exact k7 x h
    · intro s' hc
      subst hc
      have hc' : c' = some s' := by
        rcases e6 with h | h
        · cases h
        · exact h
      exact (k8 s' hc').trans (S.keep F a as dr)

theorem PInv.keepsFrom {P : Prims} {L : Link} {K : List Bytes} {G : List Sn} {v : View} {st : MemStore}
    (I : PInv P L K G v st) {K' : List Bytes} (h : ∀ x ∈ K', x ∈ K ∧ x ∉ v.ex) :
    KeepsOnly P K' (L.stateKeyA P) st := by
  intro x hx ke p hs hp
  obtain ⟨ss, s0, h1, h2, h3⟩ := I.state
  refine ⟨ss, h2, ?_⟩
  rcases I.erased x (h x hx).1 (h x hx).2 ke p hs hp with h | ⟨h, s, h4, h5⟩
  · exact .inl (by rw [h3.next, h]; rfl)
  · rw [h1] at h4; cases h4
    exact .inr ⟨by rw [h3.seen, h]; rfl, by rw [h3.own, h5]⟩

/-- A session beside the conversation is stored as it was. -/
theorem PInv.beside {P : Prims} {L : Link} {K : List Bytes} (hK : Keys P L K) {G : List Sn} {v : View}
    {st : MemStore} (I : PInv P L K G v st) {y z : Bytes} (hy : y ∈ K) (hz : z ∈ K) (hx : y ∈ v.ex) :
    st.sessions (L.skey P y z) = v.base (L.skey P y z) := by
  refine I.only _ fun j s _ hs e => ?_
  have hm := List.mem_of_getElem? hs
  have := (hK.skey _ hy _ hz _ (I.mem s hm).1 _ (I.mem s hm).2 e).1
  exact I.exd s hm (this ▸ hx)

/-- The messages of the second user's own first contact. -/
theorem Back.spent (S : Contact P L k uidA uidB K A0 B0) {Uh Us : List Bytes} (dr : Draws L K Uh Us [])
    {G : List Sn} {v : View} {A B : MemStore} (IA : PInv P L K G v A) {s : Bytes} {u : View} {rs : List Rec}
    {o gS : List Nat} (H : Back P L k uidB Uh Us v s u rs o gS)
    (HB : ∃ op m t, SInv P (L.flip.skey P s k) (firstSn P (L.back k) s).root (P.dhPub s) (P.dhPub k)
      ((L.back k).fix P) (u.sent 0) op m B t) (hlen : rs.length < 2 ^ 62)
    (x : Nat) (m : Rec) (hm : rs[x]? = some m) : Spent P L.flip B A m.wire (x ∈ gS) := by
  have hmem := List.mem_of_getElem? hm
  have R := H.dir.ok m hmem
  obtain ⟨s0, h, hs, Hd, hw⟩ := R.hdr
  have hj : m.j = 0 := by have := R.cur; have := H.cur; omega
  rw [hj] at hs
  obtain rfl : firstSn P (L.back k) s = s0 := Option.some.inj hs
  have hi : m.i < 2 ^ 62 := by have := H.dir.sentle m.j; have := R.cnt; omega
  obtain ⟨op, n, t, J⟩ := HB
  have hc := R.cnt
  rw [hj] at hc
  refine ⟨m.r, h, _, hw, ?_, fun hx => ?_⟩
  · rw [Hd.count, Hd.sess, Hd.temp]
    exact J.goneKey hc (by omega)
  · have ho := (H.dir.opened x m hm).mpr hx
    rw [hj] at ho
    have ho : m.i ∈ o := by
      have e : (seenOf o).opened 0 = o := by
        show fset (fun _ => []) 0 o 0 = o
        exact fset_same _ _ _
      rw [e] at ho; exact ho
    rw [Hd.count, Hd.sess, Hd.temp]
    have hsess : A.sessions (L.skey P k s) = v.base (L.skey P k s) :=
      IA.beside S.keysA (dr.s _ H.kU).1 (dr.s _ H.sU).1 H.ex
    rcases H.bes with ⟨-, rfl⟩ | ⟨n', t', J'⟩
    · cases ho
    · exact (J'.moved (st' := A) hsess).usedKey (by omega) ho

end

theorem contact_draws {L : Link} {k : Bytes} {as : List Act}
    (hnd : (L.aPriv :: L.bPriv :: L.kPriv :: k :: draws as).Nodup) :
    Draws L (L.aPriv :: L.bPriv :: L.kPriv :: k :: draws as) [] [L.kPriv, k] (draws as) := by
  simp only [List.nodup_cons, List.mem_cons, not_or] at hnd
  obtain ⟨⟨n1, n2, n3, n4⟩, ⟨n5, n6, n7⟩, ⟨n8, n9⟩, n10, n11⟩ := hnd
  refine ⟨fun x h => absurd h (by simp), ?_, ?_, n1, n11⟩
  · intro x hx
    simp only [List.mem_cons, List.not_mem_nil, or_false] at hx
    rcases hx with rfl | rfl
    · exact ⟨by simp, fun e => n2 e.symm, fun e => n5 e.symm, n9⟩
    · exact ⟨by simp, fun e => n3 e.symm, fun e => n6 e.symm, n10⟩
  · intro x hx
    exact ⟨by simp [hx], fun e => n4 (e ▸ hx), fun e => n7 (e ▸ hx)⟩

/-- C149: at every point of a conversation in which either user or both may make the first contact,
the key of a message is gone from the sender's store as soon as it is sent, and from the recipient's
as soon as it was opened.  The store of the user with the smaller identity has the private part of no
session key but those of the current and the next session; that of the other user has those of at most
two more. -/
theorem C149_erased_partial {P : Prims} {L : Link} {k : Bytes} {uidA uidB : UID} {A B : MemStore}
    (as : List Act) (S : Contact P L k uidA uidB (L.aPriv :: L.bPriv :: L.kPriv :: k :: draws as) A B)
    (hnd : (L.aPriv :: L.bPriv :: L.kPriv :: k :: draws as).Nodup)
    (hok : ∀ a ∈ as, a.OK P L uidA uidB) (hlen : as.length < 2 ^ 62) (t : Talk)
    (ht : t = after P L ⟨A, B, [], []⟩ as) (outs : List Out) (ho : outs = talk P L ⟨A, B, [], []⟩ as) :
    KeepsOnly P (L.aPriv :: L.bPriv :: L.kPriv :: draws as) (L.stateKeyA P) t.A ∧
    (∃ kept : List Bytes, kept.length ≤ 2 ∧
      KeepsOnly P ((L.aPriv :: L.bPriv :: L.kPriv :: k :: draws as).filter (· ∉ kept)) (L.stateKeyB P) t.B) ∧
    (∀ (x : Nat) (w : Str), t.toB[x]? = some w → Spent P L t.A t.B w (x ∈ openedTo true as outs)) ∧
    (∀ (x : Nat) (w : Str), t.toA[x]? = some w → Spent P L.flip t.B t.A w (x ∈ openedTo false as outs)) := by
  subst ht ho
  have hkA : ∀ x ∈ L.aPriv :: L.bPriv :: L.kPriv :: draws as,
      x ∈ L.aPriv :: L.bPriv :: L.kPriv :: k :: draws as ∧ x ≠ k := by
    simp only [List.nodup_cons, List.mem_cons, not_or] at hnd ⊢
    obtain ⟨⟨n1, n2, n3, n4⟩, ⟨n5, n6, n7⟩, ⟨n8, n9⟩, n10, n11⟩ := hnd
    rintro x (rfl | rfl | rfl | h)
    · exact ⟨by simp, n3⟩
    · exact ⟨by simp, n6⟩
    · exact ⟨by simp, n8⟩
    · exact ⟨by simp [h], fun e => n10 (e ▸ h)⟩
  obtain ⟨f, ra, rb, Uh, Us, c, F, l1, l2, -, -, g1, g2, dr, -⟩ := S.reach as
    (.zero (by simp) (by simp)) hok (by simpa using hlen) (by simpa using hlen) rfl rfl (contact_draws hnd)
  generalize L.aPriv :: L.bPriv :: L.kPriv :: draws as = KA at hkA
  generalize L.aPriv :: L.bPriv :: L.kPriv :: k :: draws as = K at S F dr hkA
  generalize after P L ⟨A, B, [], []⟩ as = t at F
  have fil : ∀ (kept : List Bytes) x, x ∈ K.filter (· ∉ kept) → x ∈ K ∧ x ∉ kept := by
    intro kept x h
    simpa using h
  cases F with
  | zero hk =>
    refine ⟨keeps_new fun x h => S.newA x (hkA x h).1, ⟨[], by simp,
      keeps_new fun x h => S.newB x (fil _ x h).1⟩, ?_, ?_⟩ <;>
      · intro x w h
        simp at h
  | @oneA s v A ra h1 h2 h3 =>
    refine ⟨h1.inv.keepsFrom fun x h => ⟨(hkA x h).1, by rw [h1.ex]; simpa using (hkA x h).2⟩, ⟨[], by simp,
      keeps_new fun x h => S.newB x (fil _ x h).1⟩, ?_, fun x w h => by simp at h⟩
    intro x w h
    obtain ⟨m, hm, rfl⟩ := get_map h
    exact (h3.spent (B := B) h1.inv l1 (fun x _ _ _ hx => nomatch hx) x m hm).mono (g1 x)
  | @oneB s u B rb h1 h2 h3 =>
    refine ⟨keeps_new fun x h => S.newA x (hkA x h).1, ⟨[], by simp,
      h1.inv.keepsFrom (K' := K.filter (· ∉ [])) fun x h => ⟨(fil _ x h).1, by rw [h1.ex]; simp⟩⟩,
      fun x w h => by simp at h, ?_⟩
    intro x w h
    obtain ⟨m, hm, rfl⟩ := get_map h
    exact (h3.spent (B := A) h1.inv l2 (fun x _ _ _ hx => nomatch hx) x m hm).mono (g2 x)
  | @cross s v A ra s' u B rb o gotA h1 h2 h3 h4 h5 =>
    refine ⟨h1.inv.keepsFrom fun x h => ⟨(hkA x h).1, by rw [h1.ex]; simpa using (hkA x h).2⟩, ⟨[], by simp,
      h3.inv.keepsFrom (K' := K.filter (· ∉ [])) fun x h => ⟨(fil _ x h).1, by rw [h3.ex]; simp⟩⟩, ?_, ?_⟩
    · intro x w h
      obtain ⟨m, hm, rfl⟩ := get_map h
      exact (h2.spent (B := B) h1.inv l1 (fun x _ _ _ hx => nomatch hx) x m hm).mono (g1 x)
    · intro x w h
      obtain ⟨m, hm, rfl⟩ := get_map h
      have hk0 : 0 < u.known := by have := h3.inv.curlt; omega
      obtain ⟨n, t, J⟩ := h3.inv.sess 0 _ hk0 rfl
      exact (h5.spent S dr h1.inv ⟨_, n, t, J⟩ l2 x m hm).mono (g2 x)
  | @two _ G v w A B ra rs rb gotB gotA gotM s' u o gS H hvk h2 h3 =>
    rw [List.length_append] at l2
    refine ⟨H.IA.keepsFrom fun x h => ⟨(hkA x h).1, fun e => (hkA x h).2 (hvk x e)⟩, ?_, ?_, ?_⟩
    · rcases h2 with ⟨-, hw, -⟩ | ⟨-, hc⟩
      · exact ⟨[], by simp, H.IB.keepsFrom (K' := K.filter (· ∉ [])) fun x h =>
          ⟨(fil _ x h).1, by rw [hw]; simp⟩⟩
      · refine ⟨w.ex, ?_, H.IB.keepsFrom fun x h => fil _ x h⟩
        rw [hc.ex]
        cases u.nx <;> simp
    · intro x w h
      obtain ⟨m, hm, rfl⟩ := get_map h
      exact (H.spent l1 x m hm).mono (g1 x)
    · intro x w' h
      obtain ⟨m, hm, rfl⟩ := get_map h
      by_cases hx : x < rs.length
      · rw [List.getElem?_append_left hx] at hm
        rcases h2 with ⟨-, -, rfl⟩ | ⟨-, hc⟩
        · exact absurd hx (by simp)
        · obtain ⟨n, t, J⟩ := hc.aside
          have hsess : B.sessions (L.flip.skey P s' k) = w.base (L.flip.skey P s' k) :=
            H.IB.beside S.keysB (dr.s _ hc.back.sU).1 (dr.s _ hc.back.kU).1 (by rw [hc.ex]; simp)
          refine (hc.back.spent S dr H.IA ⟨_, n, t, J.moved hsess⟩ (by omega) x m hm).mono fun hg => ?_
          rcases (h3 x).mp (g2 x hg) with ⟨-, q⟩ | ⟨q, -⟩
          · exact q
          · omega
      · rw [List.getElem?_append_right (by omega)] at hm
        refine (H.symm.spent (by omega) _ m hm).mono fun hg => ?_
        rcases (h3 x).mp (g2 x hg) with ⟨q, -⟩ | ⟨-, q⟩
        · omega
        · exact q

theorem handle_pubs (P : Prims) {β : Type} (r : Req β) (ms : MemStore) :
    (MemStore.handle P r ms).2.pubs = ms.pubs := by
  cases r <;> try rfl
  · simp only [MemStore.handle, MemStore.storeSession]
    split
    · rfl
    · split <;> rfl
  · simp only [MemStore.handle, MemStore.delMessageKey]
    split
    · rfl
    · split <;> rfl
  · simp only [MemStore.handle, MemStore.delPrivSessionKey]
    split <;> rfl

theorem run_pubs (P : Prims) {α : Type} (p : Prog α) (ms : MemStore) :
    (p.run (MemStore.handle P) ms).2.pubs = ms.pubs := by
  induction p generalizing ms with
  | ret a => rfl
  | fail e => rfl
  | panic => rfl
  | call r k ih =>
    rw [run_call]
    exact (ih _ _).trans (handle_pubs P r ms)

theorem sendStep_pubs (P : Prims) (L : Link) (r : Round) (st : MemStore) :
    (sendStep P L r st).2.pubs = st.pubs := by
  have := run_pubs P (encrypt P (L.encArgs r) r.rnd) st
  unfold sendStep
  revert this
  split <;> (rename_i e; rw [e]; exact id)

theorem openStep_pubs (P : Prims) (L : Link) (fresh : Bytes) (m : Str) (st : MemStore) :
    (openStep P L fresh m st).2.pubs = st.pubs := by
  unfold openStep
  split
  · rfl
  · split
    · rename_i pre rest _
      have := run_pubs P (decrypt P ⟨[L.bob], pre, rest, L.nB, fresh⟩) st
      revert this
      split <;> (rename_i e; rw [e]; exact id)
    · rfl

theorem act_pubs (P : Prims) (L : Link) (t : Talk) (a : Act) :
    (act P L t a).1.B.pubs = t.B.pubs ∧ ∀ w, t.toA[0]? = some w → (act P L t a).1.toA[0]? = some w := by
  cases a with
  | send fromA r =>
    cases fromA with
    | true =>
      simp only [act]
      split <;> exact ⟨rfl, fun _ h => h⟩
    | false =>
      have hp := sendStep_pubs P L.flip r t.B
      simp only [act]
      split
      · rename_i e
        rw [e] at hp
        exact ⟨hp, fun w h => by
          simp only
          rw [List.getElem?_append_left (List.getElem?_eq_some_iff.mp h).1]; exact h⟩
      · rename_i e
        rw [e] at hp
        exact ⟨hp, fun _ h => h⟩
  | deliver toB x fresh =>
    cases toB with
    | true =>
      simp only [act]
      split
      · exact ⟨rfl, fun _ h => h⟩
      · exact ⟨openStep_pubs _ _ _ _ _, fun _ h => h⟩
    | false =>
      simp only [act]
      split <;> exact ⟨rfl, fun _ h => h⟩

theorem after_pubs (P : Prims) (L : Link) (as : List Act) (t : Talk) :
    (after P L t as).B.pubs = t.B.pubs ∧
      ∀ w, t.toA[0]? = some w → (after P L t as).toA[0]? = some w := by
  induction as generalizing t with
  | nil => exact ⟨rfl, fun _ h => h⟩
  | cons a as ih =>
    exact ⟨(ih _).1.trans (act_pubs P L t a).1, fun w h => (ih _).2 w ((act_pubs P L t a).2 w h)⟩

/-- C149, negation for the first message of the user with the larger identity: if the first contacts
cross, then however long the conversation goes on, the key of that message can be computed again from
its sender's store, its sender's identity key and public information: the private session key of this
first contact stays in the store. -/
theorem C149_kept_violated {P : Prims} {L : Link} {k : Bytes} {uidA uidB : UID} {A B : MemStore}
    (r r' : Round) (as : List Act)
    (S : Contact P L k uidA uidB
      (L.aPriv :: L.bPriv :: L.kPriv :: k :: draws (.send false r :: .send true r' :: as)) A B)
    (hnd : (L.aPriv :: L.bPriv :: L.kPriv :: k :: draws (.send false r :: .send true r' :: as)).Nodup)
    (hok : ∀ a ∈ Act.send false r :: .send true r' :: as, a.OK P L uidA uidB)
    (hlen : as.length < 2 ^ 61) (t : Talk)
    (ht : t = after P L ⟨A, B, [], []⟩ (.send false r :: .send true r' :: as)) :
    ∃ w h mk, t.toA[0]? = some w ∧
      w = P.b64 (messageBytes P r.rnd h (P.dhPub L.aPriv) mk r.sigKey r.content) ∧
      recoverSent P t.B L.bob.identity L.bPriv L.alice.identity (P.dhPub L.aPriv) h = some mk := by
  subst ht
  have hP := S.prims
  have dr := contact_draws hnd
  have hrB := hok _ (by simp : Act.send false r ∈ _)
  have hrA := hok _ (by simp : Act.send true r' ∈ _)
  generalize hK : L.aPriv :: L.bPriv :: L.kPriv :: k :: draws (.send false r :: .send true r' :: as) = K at S dr
  obtain ⟨B', u, m, e1, e2, e3, e4, e5⟩ := First.start hP S.okM S.keysM (k := L.kPriv) (ex := []) S.meetB.stA
    S.meetB.sessA S.meetB.pub S.privB S.newB ⟨hrB.1, hrB.2.kp k⟩ (by simp [Link.back]) (by simp) (by simp)
    (dr.symm.kp k)
  have hkey := sendStep_first hP S.okM hrB.1 S.meetB.stA e1
  have hpub : B'.pubs = B.pubs := by
    have := sendStep_pubs P (L.back k) r B
    rw [e1] at this; exact this
  rw [show sendStep P (L.back k) r B = sendStep P L.flip r B from rfl] at e1
  have dr1 := dr.send
  obtain ⟨A', v, m', a1, a2, a3, a4, a5⟩ := First.start hP S.a S.keysA (k := k) (ex := [k]) S.meetA.stA
    S.meetA.sessA S.meetA.pub S.privA S.newA hrA (by simp) (by simp) (by simp) dr1
  have dr2 := dr1.send
  have hs := e3.pool.sess (firstSn P (L.back k) r.rnd.sessPriv) (by simp)
  have F : Cross P L k K uidA uidB A B _ _ (some r.rnd.sessPriv) ⟨A', B', [m'].map Rec.wire, [m].map Rec.wire⟩
      ⟨[m'].map Rec.e, [m].map Rec.e, [], []⟩ [m'] [m] :=
    .cross (o := []) a3 a5 (e3.more fun x h => by simp at h ⊢; simp [h]) e4
      ⟨by rw [a3.ex]; simp, by simp, by simp, hs.2.2, e3.cur, .inl ⟨by
        rw [a4]
        exact S.meetA.sessA k (dr.s k (by simp)).1 r.rnd.sessPriv (dr.r _ (by simp [draws])).1, rfl⟩,
        e5.more fun x h => by simp at h ⊢; simp [h]⟩
  have hpA : A'.privs = A.privs := by
    have := sendStep_privs P L r' A
    rw [a1] at this; exact this
  have hpB : B'.privs = B.privs := by
    have := sendStep_privs P L.flip r B
    rw [e1] at this; exact this
  obtain ⟨f, ra, rb, Uh, Us, c, -, -, -, -, -, -, -, -, hkeep⟩ := S.reach as F
    (fun a h => hok a (by simp [h])) (by simp; omega) (by simp; omega) hpA hpB dr2
  have hkeep := hkeep _ rfl
  obtain ⟨k1, k2⟩ := after_pubs P L as ⟨A', B', [m'.wire], [m.wire]⟩
  have hact : after P L ⟨A, B, [], []⟩ (.send false r :: .send true r' :: as) =
      after P L ⟨A', B', [m'.wire], [m.wire]⟩ as := by
    simp only [after, act, e1, a1, List.nil_append]
  obtain ⟨s0, h, h1, H, h3⟩ := (e5.ok m (by simp)).hdr
  have hj : m.j = 0 := by have := (e5.ok m (by simp)).cur; have := e3.cur; omega
  rw [hj] at h1
  obtain rfl : firstSn P (L.back k) r.rnd.sessPriv = s0 := Option.some.inj h1
  have hi : m.i = 0 := by have := e5.idx 0 m rfl; omega
  rw [hi] at h3 H
  rw [e2] at h3
  rw [hact]
  refine ⟨m.wire, h, _, k2 _ rfl, h3, ?_⟩
  have hq : h.senderSessionPub.hash = keyHash P r.rnd.sessPriv := by rw [H.sess]; rfl
  have hp : B.pubs L.alice.identity = some (initDHKey P k).public := S.meetB.pub
  have hkeep : (after P L ⟨A', B', [m'.wire], [m.wire]⟩ as).B.skeys (keyHash P r.rnd.sessPriv) =
      some ((initDHKey P r.rnd.sessPriv).public, P.b64 r.rnd.sessPriv) := hkeep.trans hkey
  simp only [recoverSent, hq, hkeep, k1, hpub, hp, hP.unb64_b64, initDHKey_public_pub32 P hP, H.count]
  rfl

end Two
end Verif.Msg

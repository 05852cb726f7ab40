import Verif.Msg.Reset
/-
C151: a message that is refused, and the messages after it.
-/
set_option autoImplicit false
namespace Verif.Msg
open Prog Two
open Wire (Outer newOuter newPre readFirst)

/-! ### Specification -/

/-- What somebody who is none of the two users chooses for a message: a session key, a header key, a
nonce and the free fields of the header. -/
structure Forger where
  sess : Bytes
  head : Bytes
  nonce : Bytes
  lastHash : Str
  nymAddress : Str
  padding : Str

/-- A header (msg/header.go:33-51) that names `user` as the sender.  It is made from the public parts of
the UID messages of `user` and of the recipient, the public key of the recipient's KeyInit message, and
what the forger chooses. -/
def forgedHeader (P : Prims) (user recipient : UID) (ki : KeyEntry) (f : Forger) : Header :=
  { recipientPubHash := recipient.pubKey.hash
    recipientTempHash := ki.hash
    senderIdentity := user.identity
    senderSessionPub := (initDHKey P f.sess).public
    senderIdentityPubHash := user.pubKey.hash
    senderIdentityPub := user.pubKey.public
    nextSenderSessionPub := none
    nextRecipientSessionPubSeen := none
    nymAddress := f.nymAddress
    senderSessionCount := 0
    senderMessageCount := 0
    senderUID := user.json
    senderLastKeychainHash := f.lastHash
    status := statusOK
    padding := f.padding }

/-- The first two packets of a message (msg/encrypt.go:282-314) with that header, and nothing after them;
`pub` is the public key of the recipient. -/
def forgery (P : Prims) (user recipient : UID) (pub : Bytes) (ki : KeyEntry) (f : Forger) : Str :=
  P.b64 ((newOuter Wire.preHeaderPacket 0 (newPre (P.dhPub f.head)).write).write true ++
    (newOuter Wire.encryptedHeader 1 (f.nonce ++ be16 7168 ++
      P.boxSeal (P.marshal (forgedHeader P user recipient ki f)) f.nonce pub f.head)).write true)

/-! ### Proof -/

/-- Messages can be written in a session. -/
theorem Two.PInv.writeAll {P : Prims} (hP : P.Good) {L : Link} {uid : UID} (hL : L.OK P uid) {K : List Bytes}
    (hK : Keys P L K) {b : Bool} {G : List Sn} {w : View} (hw : w.nx = none ∧ w.ex = []) : ∀ (rs : List Round)
    {Uh Us : List Bytes} {v : View} {A : MemStore} {ra : List Rec},
    (∀ r ∈ rs, r.OK P uid ∧ Fits P L r) → PInv P L K G v A → Pool Us G v w →
    Dir P L uid Uh G v w ra [] → ra.length + rs.length < 2 ^ 62 →
    Draws L K Uh Us (draws (rs.map (Act.send b))) →
    ∃ ws, Verif.Msg.writeAll P L rs A = some ws ∧ ws.length = rs.length := by
  intro rs
  induction rs with
  | nil => intros; exact ⟨[], rfl, rfl⟩
  | cons r rs ih =>
    intro Uh Us v A ra hr I pool D hlen dr
    simp only [List.length_cons] at hlen
    obtain ⟨A', m, e1, -, e3, e4, e5, e6⟩ := send_party hP hL hK (hr r (by simp)) I pool D (by omega) dr
    have pm := pool.more (Us' := r.rnd.sessPriv :: r.rnd.nextPriv :: Us) (fun x hx => by simp [hx])
    obtain ⟨ws, h1, h2⟩ := ih (fun r hr' => hr r (by simp [hr'])) e3
      (Pool.mk (Us := r.rnd.sessPriv :: r.rnd.nextPriv :: Us) pm.sess e5 pm.nw pm.ev pm.ew) e6
      (by simp only [List.length_append, List.length_singleton]; omega) dr.send
    refine ⟨m.wire :: ws, ?_, by simp [h2]⟩
    simp only [Verif.Msg.writeAll, e1, h1, Option.map_some]

theorem contact_draws' {L : Link} {k : Bytes} {ds : List Bytes}
    (hnd : (L.aPriv :: L.bPriv :: L.kPriv :: k :: ds).Nodup) :
    Draws L (L.aPriv :: L.bPriv :: L.kPriv :: k :: ds) [] [L.kPriv, k] ds := by
  simp only [List.nodup_cons, List.mem_cons, not_or] at hnd
  obtain ⟨⟨n1, n2, n3, n4⟩, ⟨n5, n6, n7⟩, ⟨n8, n9⟩, n10, n11⟩ := hnd
  refine ⟨fun x h => absurd h (by simp), ?_, ?_, n1, n11⟩
  · intro x hx
    simp only [List.mem_cons, List.not_mem_nil, or_false] at hx
    rcases hx with rfl | rfl
    · exact ⟨by simp, fun e => n2 e.symm, fun e => n5 e.symm, n9⟩
    · exact ⟨by simp, fun e => n3 e.symm, fun e => n6 e.symm, n10⟩
  · intro x hx
    exact ⟨by simp [hx], fun e => n4 (e ▸ hx), fun e => n7 (e ▸ hx)⟩

/-- Nothing is read from an empty body. -/
theorem decBody_nil (P : Prims) (mk : Bytes) (u : Str) (st : MemStore) :
    ∃ x, (decBody P mk u []).run (MemStore.handle P) st = (x, st) ∧ ∀ y, x ≠ .ok y :=
  ⟨_, rfl, fun _ h => nomatch h⟩

theorem refused_bind {P : Prims} {α β : Type} {p : Prog α} {f : α → Prog β} {st : MemStore}
    (h : ∀ a s, ∃ x, (f a).run (MemStore.handle P) s = (x, s) ∧ ∀ y, x ≠ .ok y) :
    ∃ x, (p.bind f).run (MemStore.handle P) st = (x, (p.run (MemStore.handle P) st).2) ∧ ∀ y, x ≠ .ok y := by
  rw [Prog.run_bind]
  cases e : p.run (MemStore.handle P) st with
  | mk x s =>
    cases x with
    | ok a => exact h a s
    | err z => exact ⟨_, rfl, fun _ h => nomatch h⟩
    | panic => exact ⟨_, rfl, fun _ h => nomatch h⟩

section
variable {P : Prims} {L : Link}

/-- The run of Decrypt for a message without body, after the session handling. -/
theorem openStep_nobody (hP : P.Good) {uid : UID} (hL : L.OK P uid) {rnd : Rnd} (hr : rnd.Good) {h : Header}
    (hlen : (P.marshal h).length = 7152) (hpar : P.parse (P.marshal h) = some h) (hv : h.verify P = true)
    {fresh : Bytes} {B B1 : MemStore} {sb : State}
    (hs : (decSession P ⟨[L.bob], (newPre (P.dhPub rnd.headerPriv)).write,
        (newOuter Wire.encryptedHeader 1 (rnd.nonce ++ be16 7168 ++
          P.boxSeal (P.marshal h) rnd.nonce (P.dhPub L.bPriv) rnd.headerPriv)).write true ++ [],
        L.nB, fresh⟩ (effKeys L.nB) (P.dhPub rnd.headerPriv) L.bob h).run
          (MemStore.handle P) B = (.ok (some sb), B1)) :
    openStep P L fresh (P.b64 ((newOuter Wire.preHeaderPacket 0 (newPre (P.dhPub rnd.headerPriv)).write).write true ++
      (newOuter Wire.encryptedHeader 1 (rnd.nonce ++ be16 7168 ++
        P.boxSeal (P.marshal h) rnd.nonce (P.dhPub L.bPriv) rnd.headerPriv)).write true)) B =
      (none, ((decExtend P (effKeys L.nB) L.bob h (decSessionKey P L.bob h) (some sb)).run
        (MemStore.handle P) B1).2) := by
  have hhead : (decHead P ⟨[L.bob], (newPre (P.dhPub rnd.headerPriv)).write,
      (newOuter Wire.encryptedHeader 1 (rnd.nonce ++ be16 7168 ++
        P.boxSeal (P.marshal h) rnd.nonce (P.dhPub L.bPriv) rnd.headerPriv)).write true ++ [],
      L.nB, fresh⟩).run (MemStore.handle P) B = (.ok (P.dhPub rnd.headerPriv, L.bob, h, []), B) := by
    rw [(noCall_decHead P _).run, decHead_message P hP rnd hr h hlen hpar hv L.bob L.bPriv hL.b _ _ _]
  have hrun : ∃ x, (decrypt P ⟨[L.bob], (newPre (P.dhPub rnd.headerPriv)).write,
      (newOuter Wire.encryptedHeader 1 (rnd.nonce ++ be16 7168 ++
        P.boxSeal (P.marshal h) rnd.nonce (P.dhPub L.bPriv) rnd.headerPriv)).write true ++ [],
      L.nB, fresh⟩).run (MemStore.handle P) B =
        (x, ((decExtend P (effKeys L.nB) L.bob h (decSessionKey P L.bob h) (some sb)).run
          (MemStore.handle P) B1).2) ∧ ∀ y, x ≠ .ok y := by
    unfold decrypt
    simp only [bind_eq]
    rw [run_bind_of_ok _ hhead]
    simp only
    rw [show (if L.nB = 0 then numOfFutureKeys else L.nB) = effKeys L.nB from rfl]
    rw [run_bind_of_ok _ hs]
    refine refused_bind (fun _ s => ?_)
    generalize decSessionKey P L.bob h = key
    simp only [Prog.run_bind]
    cases e : (Prog.ask (.getMsgKey key false h.senderMessageCount)).run (MemStore.handle P) s with
    | mk y s' =>
      have hs' : s' = s := by
        rw [Prog.run_ask] at e
        split at e <;> exact (Prod.mk.inj e).2.symm
      subst hs'
      cases y with
      | ok mk =>
        obtain ⟨x, h1, h2⟩ := decBody_nil P mk h.senderUID s'
        simp only [h1]
        cases x with
        | ok z => exact absurd rfl (h2 z)
        | err z => exact ⟨_, rfl, fun _ h => nomatch h⟩
        | panic => exact ⟨_, rfl, fun _ h => nomatch h⟩
      | err z => exact ⟨_, rfl, fun _ h => nomatch h⟩
      | panic => exact ⟨_, rfl, fun _ h => nomatch h⟩
  obtain ⟨x, h1, h2⟩ := hrun
  unfold openStep
  rw [hP.unb64_b64]
  simp only
  rw [show Wire.preHeaderPacket = 1 from rfl,
    Wire.C04_first_roundtrip _ _ (by rw [hP.dhPub_len]; omega)]
  rw [List.append_nil] at h1
  simp only [h1]
  cases x with
  | ok z => exact absurd rfl (h2 z)
  | err z => rfl
  | panic => rfl

theorem forged_hdr (f : Forger) {uid : UID} (hL : L.OK P uid)
    (hlen : (P.marshal (forgedHeader P L.alice L.bob (initDHKey P L.kPriv).public f)).length = 7152) :
    Hdr P L (firstSn P L f.sess) 0 none none
      (forgedHeader P L.alice L.bob (initDHKey P L.kPriv).public f) :=
  ⟨hlen, ⟨rfl, rfl, fun _ h => (nomatch h), fun _ h => (nomatch h)⟩, rfl, rfl, rfl,
    by show L.alice.pubKey.public = _; rw [hL.a], rfl, rfl, rfl, rfl⟩

end

/-- After the forged message. -/
theorem forged_after {P : Prims} {L : Link} {k : Bytes} {uidA uidB : UID} {A B : MemStore}
    (f : Forger) (fresh : Bytes) {ds rest : List Bytes} (hds : ds = f.head :: f.sess :: fresh :: rest)
    (S : Contact P L k uidA uidB (L.aPriv :: L.bPriv :: L.kPriv :: k :: ds) A B)
    (hnd : (L.aPriv :: L.bPriv :: L.kPriv :: k :: ds).Nodup)
    (hnonce : f.nonce.length = 24)
    (hlen : (P.marshal (forgedHeader P L.alice L.bob (initDHKey P L.kPriv).public f)).length = 7152) :
    ∃ B', openStep P L fresh (forgery P L.alice L.bob (P.dhPub L.bPriv) (initDHKey P L.kPriv).public f) B =
        (none, B') ∧
      PInv P L.flip (L.aPriv :: L.bPriv :: L.kPriv :: k :: ds) [(firstSn P L f.sess).flip]
        { view0 B.sessions [] false with nx := some fresh } B' := by
  subst hds
  have hP := S.prims
  have dr := contact_draws' hnd
  have nd := dr.nd
  simp only [List.nodup_cons, List.mem_cons, not_or] at nd
  have hk := dr.s L.kPriv (by simp)
  have he := dr.r f.head (by simp)
  have hs := dr.r f.sess (by simp)
  have hf := dr.r fresh (by simp)
  have hk4 := hk.2.2.2
  simp only [List.mem_cons, not_or] at hk4
  have H := forged_hdr f S.a hlen
  generalize hh : forgedHeader P L.alice L.bob (initDHKey P L.kPriv).public f = h at H
  have hpar := S.parse h H.clean H.len
  let rnd : Rnd := ⟨f.head, [], [], f.nonce, List.replicate 16 0, false, fun n => List.replicate n 0,
    fun n => List.replicate n 0⟩
  have hg : rnd.Good := ⟨hnonce, by simp [rnd], by simp [rnd], by simp [rnd]⟩
  obtain ⟨sb, B1, d1, d2, d3⟩ := dec_first hP S.a S.b S.keysB (B := B) (ex := [])
    (fun ss h => by rw [S.meetA.stB] at h; cases h) (fun y hy _ x hx => S.meetA.sessB y hy x hx) S.meetA.priv
    S.privB (fun x hx _ ke p h => by rw [S.newB x hx] at h; cases h) H
    ⟨[L.bob], (newPre (P.dhPub rnd.headerPriv)).write,
        (newOuter Wire.encryptedHeader 1 (rnd.nonce ++ be16 7168 ++
          P.boxSeal (P.marshal h) rnd.nonce (P.dhPub L.bPriv) rnd.headerPriv)).write true ++ [],
        L.nB, fresh⟩ (hp := f.head) he.1 hk.1 (by simp) hs.1 hf.1 (by simp) (fun e => hk4.2.2.1 e)
    (fun x hx => nomatch hx) (by
      simp only [List.nodup_cons, List.mem_cons, List.not_mem_nil, or_false, not_or,
        not_false_eq_true, List.nodup_nil, and_true]
      exact ⟨⟨he.2.1, nd.1.1, he.2.2, fun e => hk4.1 e.symm⟩, ⟨fun e => hs.2.1 e.symm, dr.ab,
        fun e => hk.2.1 e.symm⟩, ⟨hs.2.2, fun e => hk4.2.1 e.symm⟩, fun e => hk.2.2.1 e.symm⟩)
  have hopen := openStep_nobody hP S.a hg H.len hpar (H.verify hP) (fresh := fresh) d1
  simp only [startStep] at d3
  have hfl := fix_flip P L
  obtain ⟨ss, s0, hs0, hst, hss⟩ := d3.state
  rw [d2] at hst; cases hst
  obtain rfl : (firstSn P L f.sess).flip = s0 := Option.some.inj hs0
  obtain ⟨m, t, J⟩ := d3.sess 0 (firstSn P L f.sess).flip (Nat.zero_lt_one) rfl
  rw [hfl] at J
  have h3 : h.senderSessionPub = (initDHKey P f.sess).public := H.sess
  have h5 : h.recipientTempHash = keyHash P L.kPriv := H.temp
  have hkey : decSessionKey P L.bob h = L.flip.skey P L.kPriv f.sess := by
    simp only [decSessionKey, S.a.b, h3, H.idp, h5]; rfl
  have hfix : identityFix P h.senderIdentity L.bob.identity = L.fix P := by rw [H.ident]; rfl
  have hext := SInv.decExtend hP (effKeys_ne L.nB) (effKeys_lt S.a.nB) (u := L.bob) (h := h) (ss := sb)
    (d3.rlen (firstSn P L f.sess).flip (by simp)) (sp := P.dhPub f.sess) (rp := P.dhPub L.kPriv)
    (by rw [h3]; exact initDHKey_public_pub32 P hP _)
    h5 (by rw [h3]; rfl) (i := 0) (by decide) H.count (k := 0) (by decide) (by
      refine .inl ⟨?_, ?_⟩
      · rw [h5, hss.own]; rfl
      · rw [hss.own]; exact initDHKey_pub32 P hP _)
    (by rw [hkey, hfix]; exact J)
  have hI : ∃ B', ((decExtend P (effKeys L.nB) L.bob h (decSessionKey P L.bob h) (some sb)).run
      (MemStore.handle P) B1).2 = B' ∧ PInv P L.flip (L.aPriv :: L.bPriv :: L.kPriv :: k ::
        f.head :: f.sess :: fresh :: rest) [(firstSn P L f.sess).flip]
        { view0 B.sessions [] false with nx := some fresh } B' := by
    rcases hext with ⟨m', st', s', e1, -, e3, e4⟩ | ⟨-, -, e3⟩
    · refine ⟨st', by rw [e1], ?_⟩
      rw [hkey] at e3 e4
      have := d3.update S.keysB (j := 0) Nat.zero_lt_one rfl
        (o := (view0 B.sessions [] false).opened 0) e3 ⟨m', s', by rw [hfl, ← hfix]; exact e4⟩
      rw [fset_id] at this
      exact this
    · exact ⟨B1, by rw [e3], d3⟩
  obtain ⟨B', hB, I⟩ := hI
  rw [hB] at hopen
  exact ⟨B', by rw [← hopen, ← hh]; rfl, I⟩

theorem forged_pool {P : Prims} {L : Link} {k : Bytes} {B : MemStore} (f : Forger) (fresh : Bytes)
    (h : L.kPriv ≠ f.sess) : Pool (f.sess :: fresh :: [L.kPriv, k]) [(firstSn P L f.sess).flip]
      { view0 B.sessions [] false with nx := some fresh } (view0 (fun _ => none) [] false) := by
  refine ⟨?_, ?_, fun y h => (nomatch h), fun y h => (nomatch h), fun y h => (nomatch h)⟩
  · intro s hs
    obtain rfl := List.mem_singleton.mp hs
    exact ⟨show L.kPriv ∈ _ by simp, show f.sess ∈ _ by simp, h⟩
  · intro y hy
    simp only [Option.some.injEq] at hy
    simp [← hy]

theorem forged_dir {P : Prims} {L : Link} {uid : UID} {B : MemStore} (f : Forger) (fresh : Bytes) :
    Dir P L.flip uid [f.head] [(firstSn P L f.sess).flip]
      { view0 B.sessions [] false with nx := some fresh } (view0 (fun _ => none) [] false) [] [] :=
  ⟨fun m h => absurd h (by simp), fun m h => absurd h (by simp), fun x m h => absurd h (by simp),
    fun j => rfl, fun x x' m m' h => absurd h (by simp), fun x m h => absurd h (by simp),
    fun j i hi => absurd hi (by simp [view0]), fun x h => absurd h (by simp)⟩

/-- C151. DISAGREES WITH THE CODE. Two users have each other's KeyInit message and have never
communicated.  Somebody else, with nothing but the public keys, a session key and a header key of their
own, sends the second user a message that names the first one as the sender and has no body.  The message
is refused.  From then on the second user can write any number of messages to the first, and the first
opens none of them. -/
theorem C151_forged_violated {P : Prims} {L : Link} {k : Bytes} {uidA uidB : UID} {A B : MemStore}
    (f : Forger) (fresh : Bytes) (rs : List Round) {ds : List Bytes}
    (hds : ds = f.head :: f.sess :: fresh :: draws (rs.map (Act.send false)))
    (S : Contact P L k uidA uidB (L.aPriv :: L.bPriv :: L.kPriv :: k :: ds) A B)
    (hnd : (L.aPriv :: L.bPriv :: L.kPriv :: k :: ds).Nodup)
    (hnonce : f.nonce.length = 24)
    (hlen : (P.marshal (forgedHeader P L.alice L.bob (initDHKey P L.kPriv).public f)).length = 7152)
    (hx : A.privs (keyHash P f.sess) = none)
    (hrs : ∀ r ∈ rs, r.OK P uidB ∧ Fits P L.flip r) (hn : rs.length < 2 ^ 62) :
    ∃ B' ws, openStep P L fresh (forgery P L.alice L.bob (P.dhPub L.bPriv) (initDHKey P L.kPriv).public f) B =
        (none, B') ∧
      writeAll P L.flip rs B' = some ws ∧ ws.length = rs.length ∧
      ∀ m ∈ ws, ∀ y, openStep P L.flip y m A = (none, A) := by
  obtain ⟨B', hopen, I⟩ := forged_after f fresh hds S hnd hnonce hlen
  subst hds
  have hP := S.prims
  have dr := contact_draws' hnd
  have dr1 := dr.send
  have hs := dr.r f.sess (by simp)
  have hk := dr.s L.kPriv (by simp)
  have hk4 := hk.2.2.2
  simp only [List.mem_cons, not_or] at hk4
  have pool := forged_pool (B := B) f fresh (L := L) (k := k) (P := P) hk4.2.1
  have D := forged_dir (B := B) f fresh (L := L) (P := P) (uid := uidB)
  obtain ⟨ws, w1, w2⟩ := I.writeAll hP S.b S.keysB ⟨rfl, rfl⟩ rs hrs pool D
    (by simp only [List.length_nil]; omega) dr1.symm
  obtain ⟨ss, s0, hs0, hst, hss⟩ := I.state
  obtain rfl : (firstSn P L f.sess).flip = s0 := Option.some.inj hs0
  refine ⟨B', ws, ?_, w1, w2, ?_⟩
  · exact hopen
  · exact answers_refused hP S.b S.parse (B := A) (p := (initDHKey P f.sess).public)
      (o := initDHKey P L.kPriv) hx (S.meetA.sessA f.sess hs.1 L.kPriv hk.1) rs (fun r hr => (hrs r hr).1)
      hst hss.own hss.peer w1

theorem Two.Contact.sub {P : Prims} {L : Link} {k : Bytes} {uidA uidB : UID} {K K' : List Bytes} {A B : MemStore}
    (S : Contact P L k uidA uidB K A B) (h : ∀ x ∈ K', x ∈ K) (ha : L.aPriv ∈ K') (hb : L.bPriv ∈ K') :
    Contact P L k uidA uidB K' A B :=
  let sub : ∀ {L : Link}, Keys P L K → L.aPriv ∈ K' → L.bPriv ∈ K' → Keys P L K' := fun k ha hb =>
    ⟨ha, hb, fun x hx => k.len x (h x hx), fun x hx y hy => k.inj x (h x hx) y (h y hy),
      fun x hx y hy x' hx' y' hy' => k.skey x (h x hx) y (h y hy) x' (h x' hx') y' (h y' hy')⟩
  { prims := S.prims
    a := S.a
    b := S.b
    keysA := sub S.keysA ha hb
    keysB := sub S.keysB hb ha
    parse := S.parse
    order := S.order
    meetA := ⟨S.meetA.stA, S.meetA.stB, fun y hy x hx => S.meetA.sessA y (h y hy) x (h x hx),
      fun y hy x hx => S.meetA.sessB y (h y hy) x (h x hx), S.meetA.pub, S.meetA.priv⟩
    meetB := ⟨S.meetB.stA, S.meetB.stB, fun y hy x hx => S.meetB.sessA y (h y hy) x (h x hx),
      fun y hy x hx => S.meetB.sessB y (h y hy) x (h x hx), S.meetB.pub, S.meetB.priv⟩
    privA := fun x hx => S.privA x (h x hx)
    privB := fun x hx => S.privB x (h x hx)
    newA := fun x hx => S.newA x (h x hx)
    newB := fun x hx => S.newB x (h x hx) }

/-- Only a session of other keys changes. -/
theorem Two.PInv.other {P : Prims} {L : Link} {K : List Bytes} {G : List Sn} {v : View}
    {st st' : MemStore} (I : PInv P L K G v st) {key : Str} (hkey : ∀ y ∈ K, ∀ x ∈ K, L.skey P y x ≠ key)
    (F : Frame key st st') :
    PInv P L K G { v with base := upd v.base key (st'.sessions key) } st' := by
  have hne : ∀ s ∈ G, L.skey P s.a s.b ≠ key := fun s hs => hkey _ (I.mem s hs).1 _ (I.mem s hs).2
  refine ⟨⟨I.cur, I.len, ?_, ?_, I.rlen, ?_, ?_, ?_, ?_, I.mem, I.dist, I.nxd, I.seen,
    I.roots, I.far, I.farO, I.nxe, I.exd, ?_⟩, ?_⟩
  · obtain ⟨ss, s, h1, h2, h3⟩ := I.state
    exact ⟨ss, s, h1, by rw [F.states]; exact h2, ⟨h3.own, h3.peer, h3.next, h3.seen, h3.count, h3.ki⟩⟩
  · intro j s h1 h2
    obtain ⟨m, t, J⟩ := I.sess j s h1 h2
    exact ⟨m, t, J.moved (F.sess _ (hne s (List.mem_of_getElem? h2)))⟩
  · intro key' h
    by_cases e : key' = key
    · subst e
      exact (upd_same _ _ _).symm
    · rw [F.sess _ e]
      refine (I.only key' h).trans ?_
      exact (upd_other _ _ e).symm
  · intro j s h1 h2
    unfold Own
    rw [F.privs, F.skeys]
    exact I.own j s h1 h2
  · intro y hy
    rw [F.skeys]; exact I.nxt y hy
  · rw [F.privs]; exact I.privs
  · intro y' hy' he x' hx'
    exact (upd_other _ _ (hkey y' hy' x' hx')).trans (I.newX y' hy' he x' hx')
  · show ∀ x ∈ K, x ∉ v.ex → ∀ ke p, st'.skeys _ = _ → _
    rw [F.skeys]; exact I.erased

/-- Session handling for the first message of another session from the same sender. -/
theorem dec_second {P : Prims} (hP : P.Good) {M : Link} {uid : UID} (hL : M.OK P uid) {K : List Bytes}
    (hK : Keys P M.flip K) {B : MemStore} {ss : State} (hst : B.states (M.flip.stateKeyA P) = some ss)
    (hki : ss.keyInitSession = false)
    (hpriv : B.privs (keyHash P M.kPriv) = some (initDHKey P M.kPriv)) (hkK : M.kPriv ∈ K) {s : Bytes} (hsK : s ∈ K)
    (hno : B.sessions (M.flip.skey P M.kPriv s) = none)
    {i : Nat} {nx sn : Option Bytes} {h : Header} (H : Hdr P M (firstSn P M s) i nx sn h) (a : DecArgs)
    {hp : Bytes} (hpK : hp ∈ K) (hd : [hp, M.aPriv, s, M.bPriv, M.kPriv].Nodup) :
    ∃ B1, (decSession P a (effKeys M.nB) (P.dhPub hp) M.bob h).run (MemStore.handle P) B =
        (.ok (some ss), B1) ∧ Frame (M.flip.skey P M.kPriv s) B B1 ∧
      ∃ m t, SInv P (M.flip.skey P M.kPriv s) (firstSn P M s).root (P.dhPub M.kPriv) (P.dhPub s)
        (M.fix P) 0 [] m B1 t := by
  have h3 : h.senderSessionPub = (initDHKey P s).public := H.sess
  have h4 := H.idp
  have h5 : h.recipientTempHash = keyHash P M.kPriv := H.temp
  have hkey : decSessionKey P M.bob h = M.flip.skey P M.kPriv s := by
    simp only [decSessionKey, hL.b, h3, h4, h5]; rfl
  have hfix : identityFix P h.senderIdentity M.bob.identity = M.fix P := by rw [H.ident]; rfl
  unfold decSession
  simp only [bind_eq, hL.b, h4, initDHKey_pub32 P hP, initDHKey_public_pub32 P hP, orPanic, ret_bind]
  rw [show calcStateKey P (P.dhPub M.bPriv) (P.dhPub M.aPriv) = M.flip.stateKeyA P from rfl]
  rw [run_bind_of_ok (a := some ss) (s1 := B) _ (by
    rw [run_ask_ok]; simp only [MemStore.handle]; rw [hst])]
  rw [run_bind_of_ok (a := false) (s1 := B) _ (by
    rw [run_try', hkey]; simp only [MemStore.handle, MemStore.hasSession, hno, Option.isSome_none])]
  rw [if_neg (by simp)]
  have hd1 := hK.diff [hp, M.aPriv, s, M.bPriv, M.kPriv] (by
    intro z hz
    simp only [List.mem_cons, List.not_mem_nil, or_false] at hz
    rcases hz with rfl | rfl | rfl | rfl | rfl
    · exact hpK
    · exact hK.b
    · exact hsK
    · exact hK.a
    · exact hkK) hd
  obtain ⟨t, ft, rt⟩ := run_generate_new P h.senderIdentity M.bob.identity
    (initDHKey P M.aPriv).public.hash (initDHKey P M.bPriv).hash
    (firstSn P M s).root true (P.dhPub s) (P.dhPub M.kPriv) (effKeys M.nB)
    (effKeys_ne _) B hno
  rw [show genKey P (initDHKey P M.aPriv).public.hash (initDHKey P M.bPriv).hash true (P.dhPub s)
      (P.dhPub M.kPriv) = M.flip.skey P M.kPriv s from rfl] at rt
  rw [hfix] at ft
  unfold decUnknown
  simp only [bind_eq]
  rw [run_bind_of_ok (a := .ok (initDHKey P M.kPriv)) (s1 := B) _ (by
    rw [run_try', h5]; simp only [MemStore.handle, MemStore.getPrivateKeyEntry, hpriv])]
  simp only [hL.b]
  rw [h4, h3, rkaRecipient_eq P hP _ _ _ s M.aPriv M.kPriv M.bPriv _ _ (initDHKey_public_pub32 P hP _)
    (initDHKey_public_pub32 P hP _) none _ hd1]
  rw [show deriveRootKey P (P.dh M.aPriv (P.dhPub M.kPriv)) (P.dh s (P.dhPub M.kPriv))
    (P.dh s (P.dhPub M.bPriv)) none = (firstSn P M s).root from rfl]
  rw [run_bind_of_ok _ rt]
  rw [if_neg (by rw [hki]; simp)]
  have J := sinv_new (effKeys_ne _) (effKeys_lt hL.nB)
    (st := B.setSess (M.flip.skey P M.kPriv s) t) (upd_same _ _ _) ft
  exact ⟨_, rfl, Frame.setSess _ _ _, _, t, J⟩

/-- C151. DISAGREES WITH THE CODE. As before, but after the forged message, which was refused, the first
user makes the first contact and the second user opens that message.  The second user can then answer any
number of times, and the first user opens none of the answers. -/
theorem C151_first_contact_violated {P : Prims} {L : Link} {k : Bytes} {uidA uidB : UID} {A B : MemStore}
    (f : Forger) (fresh y : Bytes) (r0 : Round) (rs : List Round) {ds : List Bytes}
    (hds : ds = f.head :: f.sess :: fresh :: draws (.send true r0 :: rs.map (Act.send false)))
    (S : Contact P L k uidA uidB (L.aPriv :: L.bPriv :: L.kPriv :: k :: ds) A B)
    (hnd : (L.aPriv :: L.bPriv :: L.kPriv :: k :: ds).Nodup)
    (hnonce : f.nonce.length = 24)
    (hlen : (P.marshal (forgedHeader P L.alice L.bob (initDHKey P L.kPriv).public f)).length = 7152)
    (hx : A.privs (keyHash P f.sess) = none) (hr0 : r0.OK P uidA ∧ Fits P L r0)
    (hrs : ∀ r ∈ rs, r.OK P uidB ∧ Fits P L.flip r) (hn : rs.length < 2 ^ 62) :
    ∃ B1 w A1 B2 ws,
      openStep P L fresh (forgery P L.alice L.bob (P.dhPub L.bPriv) (initDHKey P L.kPriv).public f) B =
        (none, B1) ∧
      sendStep P L r0 A = (some w, A1) ∧
      openStep P L y w B1 = (some (r0.content, L.alice.identity, sigOf P r0.sigKey r0.content), B2) ∧
      writeAll P L.flip rs B2 = some ws ∧ ws.length = rs.length ∧
      ∀ m ∈ ws, ∀ z, openStep P L.flip z m A1 = (none, A1) := by
  subst hds
  have hP := S.prims
  have dr := contact_draws' hnd
  have nd := dr.nd
  simp only [draws, List.nodup_cons, List.mem_cons, not_or] at nd
  obtain ⟨⟨n1, n2, n3, n4, n5, n6⟩, ⟨n7, n8, n9, n10, n11⟩, ⟨n12, n13, n14, n15⟩, ⟨n16, n17, n18⟩,
    ⟨n19, n20⟩, n21, n22⟩ := nd
  have hK' : ∀ x ∈ L.aPriv :: L.bPriv :: L.kPriv :: k :: f.head :: f.sess :: fresh ::
      draws (rs.map (Act.send false)), x ∈ L.aPriv :: L.bPriv :: L.kPriv :: k :: f.head :: f.sess :: fresh ::
      draws (.send true r0 :: rs.map (Act.send false)) := by
    intro x hx
    simp only [draws, List.mem_cons] at hx ⊢
    rcases hx with h | h | h | h | h | h | h | h <;> simp [h]
  have hnd' : (L.aPriv :: L.bPriv :: L.kPriv :: k :: f.head :: f.sess :: fresh ::
      draws (rs.map (Act.send false))).Nodup := by
    refine hnd.sublist ?_
    simp only [draws]
    iterate 7 apply List.Sublist.cons_cons
    iterate 3 apply List.Sublist.cons
    exact List.Sublist.refl _
  have S' := S.sub hK' (by simp) (by simp)
  obtain ⟨B', hopen, I⟩ := forged_after f fresh rfl S' hnd' hnonce hlen
  have dr' := contact_draws' hnd'
  have hs := dr.r f.sess (by simp)
  have hk := dr.s L.kPriv (by simp)
  have hk4 := hk.2.2.2
  simp only [draws, List.mem_cons, not_or] at hk4
  have h0 := dr.r r0.rnd.sessPriv (by simp [draws])
  have hh := dr.r r0.rnd.headerPriv (by simp [draws])
  obtain ⟨A', v, m, e1, e2, e3, e4, e5⟩ := First.start hP S.a S.keysA (k := k) (ex := [k]) S.meetA.stA
      S.meetA.sessA S.meetA.pub S.privA S.newA hr0 (by simp) (by simp) (by simp) dr.send
  obtain ⟨s0, h, hs0, Hd, hw⟩ := (e5.ok m (by simp)).hdr
  have hj : m.j = 0 := by have := (e5.ok m (by simp)).cur; have := e3.cur; omega
  rw [hj] at hs0
  obtain rfl : firstSn P L r0.rnd.sessPriv = s0 := Option.some.inj hs0
  have hi : m.i = 0 := by rw [e5.num 0 m rfl]; rfl
  rw [hi] at Hd hw
  rw [e2] at hw
  obtain ⟨ss, s0, hs0, hst, hss⟩ := I.state
  obtain rfl : (firstSn P L f.sess).flip = s0 := Option.some.inj hs0
  have hother : ∀ y ∈ L.aPriv :: L.bPriv :: L.kPriv :: k :: f.head :: f.sess :: fresh ::
      draws (rs.map (Act.send false)), ∀ x ∈ L.aPriv :: L.bPriv :: L.kPriv :: k :: f.head :: f.sess :: fresh ::
      draws (rs.map (Act.send false)), L.flip.skey P y x ≠ L.flip.skey P L.kPriv r0.rnd.sessPriv := by
    intro y hy x hx e
    have := (S.keysB.skey _ (hK' y hy) _ (hK' x hx) _ hk.1 _ h0.1 e).2
    rw [this] at hx
    simp only [List.mem_cons] at hx
    rcases hx with h | h | h | h | h | h | h | h
    · exact h0.2.1 h
    · exact h0.2.2 h
    · exact hk4.2.2.2.2.1 h.symm
    · exact (dr.s k (by simp)).2.2.2 (by rw [← h]; simp [draws])
    · exact n4 h.symm
    · exact n9 h.symm
    · exact n13 h.symm
    · exact n20 h
  have hno : B'.sessions (L.flip.skey P L.kPriv r0.rnd.sessPriv) = none :=
    (I.only (L.flip.skey P L.kPriv r0.rnd.sessPriv) (by
      intro j s _ hj
      have hm := I.mem s (List.mem_of_getElem? hj)
      exact fun e => hother _ hm.1 _ hm.2 e.symm)).trans
      (S.meetA.sessB L.kPriv hk.1 r0.rnd.sessPriv h0.1)
  have hpriv : B'.privs (keyHash P L.kPriv) = some (initDHKey P L.kPriv) := by
    have := openStep_privs P L fresh (forgery P L.alice L.bob (P.dhPub L.bPriv) (initDHKey P L.kPriv).public f) B
    rw [hopen] at this
    rw [show B'.privs = B.privs from this]
    exact S.meetA.priv
  obtain ⟨B1, d1, F1, mm, t, J⟩ := dec_second hP S.a S.keysB hst hss.ki hpriv hk.1 h0.1 hno Hd
    ⟨[L.bob], (newPre (P.dhPub r0.rnd.headerPriv)).write,
        (newOuter Wire.encryptedHeader 1 (r0.rnd.nonce ++ be16 7168 ++
          P.boxSeal (P.marshal h) r0.rnd.nonce (P.dhPub L.bPriv) r0.rnd.headerPriv)).write true ++
          encBody P (senderKey P (firstSn P L r0.rnd.sessPriv).flip.root
            (P.dhPub (firstSn P L r0.rnd.sessPriv).flip.a) (L.fix P) 0)
            r0.rnd r0.sigKey r0.content, L.nB, y⟩ (hp := r0.rnd.headerPriv) hh.1 (by
      simp only [List.nodup_cons, List.mem_cons, List.not_mem_nil, or_false, not_or,
        not_false_eq_true, List.nodup_nil, and_true]
      exact ⟨⟨hh.2.1, n16, hh.2.2, fun e => hk4.2.2.2.1 e.symm⟩, ⟨fun e => h0.2.1 e.symm, dr.ab,
        fun e => hk.2.1 e.symm⟩, ⟨h0.2.2, fun e => hk4.2.2.2.2.1 e.symm⟩, fun e => hk.2.2.1 e.symm⟩)
  have H' : Hdr P L (firstSn P L r0.rnd.sessPriv).flip.flip 0 m.nx m.sn h := by
    rw [Sn.flip_flip]; exact Hd
  obtain ⟨B2, F2, hB⟩ := dec_core hP S.a hr0.1 hr0.2.content (q := (firstSn P L r0.rnd.sessPriv).flip) (k := 0)
    (o := []) J (deriveRootKey_len P hP _ _ _ _) (by decide) (by decide) H' (S.parse h Hd.clean Hd.len)
    (sb := ss) (.inl ⟨by rw [hss.own]; rfl, by rw [hss.own]; exact initDHKey_pub32 P hP _⟩) y d1
  rw [Sn.flip_flip, ← hw] at hB
  rcases hB with ⟨-, g2, -⟩ | ⟨h | h, -⟩
  rotate_left
  · cases h
  · have : 0 < (effKeys L.nB).toNat := by
      rcases Nat.eq_zero_or_pos (effKeys L.nB).toNat with e | e
      · exact absurd (UInt64.toNat_inj.mp e) (effKeys_ne L.nB)
      · exact e
    unfold roundUp at h
    rw [Nat.div_eq_of_lt (by omega)] at h
    omega
  have I2 := I.other hother (F1.trans F2)
  have pool := forged_pool (B := B) f fresh (L := L) (k := k) (P := P) hk4.2.1
  have D := forged_dir (B := B) f fresh (L := L) (P := P) (uid := uidB)
  obtain ⟨ws, w1, w2⟩ := I2.writeAll hP S.b S'.keysB ⟨rfl, rfl⟩ rs hrs
    ⟨pool.sess, pool.nv, pool.nw, pool.ev, pool.ew⟩
    (D.later ⟨fun _ _ h => h, fun _ => Nat.le_refl _, .inl ⟨rfl, fun _ h => h⟩⟩ (fun _ h => h) rfl rfl)
    (by simp only [List.length_nil]; omega) dr'.send.symm
  refine ⟨B', m.wire, A', B2, ws, hopen, e1, g2, w1, w2, ?_⟩
  have hp : ss.recipientTemp.hash = keyHash P f.sess := by rw [hss.peer]; rfl
  have ho : ss.senderSessionPub.hash = keyHash P L.kPriv := by rw [hss.own]; rfl
  refine (C150_restart_violated hP S.b S.a S.parse hst (.inl hss.ki) hr0.1 (B := A) S.meetA.stA
    (by rw [hp]; exact hx) e1 ?_ ?_ g2 (fun r hr => (hrs r hr).1) w1).2
  · rw [hp, ho]
    refine (e3.inv.only (L.skey P f.sess L.kPriv) ?_).trans (by
      rw [e4]; exact S.meetA.sessA f.sess hs.1 L.kPriv hk.1)
    intro j s _ hj e
    obtain rfl := List.mem_singleton.mp (List.mem_of_getElem? hj)
    exact n9 (S.keysA.skey _ hs.1 _ hk.1 _ h0.1 _ hk.1 e).1
  · intro ki hki
    obtain rfl := Option.some.inj (S.meetA.pub.symm.trans hki)
    exact hno

/-- C151, what holds: an input of Decrypt whose header cannot be read, because it is not a message, is not
for this user or was damaged, leaves the store as it was. -/
theorem C151_unreadable_partial {P : Prims} {a : DecArgs} (h : ∀ x, (decHead P a).out ≠ .ok x) (st : MemStore) :
    ((decrypt P a).run (MemStore.handle P) st).2 = st ∧
    ∀ x, ((decrypt P a).run (MemStore.handle P) st).1 ≠ .ok x := by
  unfold decrypt
  simp only [bind_eq]
  rw [run_bind, (noCall_decHead P a).run]
  cases e : (decHead P a).out with
  | ok x => exact absurd e (h x)
  | err z => exact ⟨rfl, fun _ h => nomatch h⟩
  | panic => exact ⟨rfl, fun _ h => nomatch h⟩

/-- C151, what holds: as soon as the recipient has a session with the sender that was answered, a message of
any other session that names that sender, forged or not, leaves the session state and the private keys of the
KeyInit messages as they were.  What the recipient sends next is sent in the same session. -/
theorem C151_established_partial {P : Prims} {a : DecArgs} {hp : Bytes} {u : UID} {h : Header} {r : Bytes}
    (hd : (decHead P a).out = .ok (hp, u, h, r)) {rp sp : Bytes} (hrp : u.pubKey.pub32 P = some rp)
    (hsp : h.senderIdentityPub.pub32 P = some sp) {st : MemStore} {s : State}
    (hst : st.states (calcStateKey P rp sp) = some s) (hs : s.keyInitSession = false)
    (hnew : st.sessions (decSessionKey P u h) = none) :
    ((decrypt P a).run (MemStore.handle P) st).2.states = st.states ∧
    ((decrypt P a).run (MemStore.handle P) st).2.privs = st.privs :=
  ⟨decrypt_states P a st hd hrp hsp hst (by rw [hs]; rfl) hnew, run_privs P _ _⟩

end Verif.Msg

import Verif.Msg.TwoWayRefresh
/-
C147: what the stores keep of keys that have been used.
-/
set_option autoImplicit false
namespace Verif.Msg
open Prog
namespace Two

/-! ### The specification -/

/-- The messages opened during a list of actions, in the direction to the second user or to the first. -/
def openedTo (toB : Bool) : List Act → List Out → List Nat
  | .deliver b x _ :: as, .got _ _ _ :: os =>
    if b = toB then x :: openedTo toB as os else openedTo toB as os
  | _ :: as, _ :: os => openedTo toB as os
  | _, _ => []

/-- Of the keys `K` the store has the private part of none but the own key of the current session, as
long as the next session is not prepared, and the own key announced for the next session. -/
def KeepsOnly (P : Prims) (K : List Bytes) (stateKey : Str) (st : MemStore) : Prop :=
  ∀ x ∈ K, ∀ ke p, st.skeys (keyHash P x) = some (ke, p) → p ≠ [] →
    ∃ ss, st.states stateKey = some ss ∧ (ss.nextSenderSessionPub = some (initDHKey P x) ∨
      (ss.nextRecipientSessionPubSeen = none ∧ ss.senderSessionPub = initDHKey P x))

/-- The message `w`, written by the first user of `L` with header `h` and message key `mk`: at the
place where the sender's store had its key nothing is left, and if it was opened nothing is left in
the recipient's store. -/
def Spent (P : Prims) (L : Link) (sender recipient : MemStore) (w : Str) (opened : Prop) : Prop :=
  ∃ (r : Round) (h : Header) (mk : Bytes),
    w = P.b64 (messageBytes P r.rnd h (P.dhPub L.bPriv) mk r.sigKey r.content) ∧
    sender.getMessageKey P (calcKey P (keyHash P L.aPriv) (keyHash P L.bPriv) h.senderSessionPub.hash
      h.recipientTempHash) true h.senderMessageCount = .error .keyUsed ∧
    (opened → recipient.getMessageKey P (calcKey P (keyHash P L.bPriv) (keyHash P L.aPriv)
      h.recipientTempHash h.senderSessionPub.hash) false h.senderMessageCount = .error .keyUsed)

/-- What someone who has the store and the identity key of the recipient `bob` can compute for a
message with header `h`: the key agreement of msg/decrypt.go:24-84 and the message key
(msg/session.go:165-233). -/
def recover (P : Prims) (st : MemStore) (bPriv : Bytes) (bob : Str) (h : Header) : Option Bytes :=
  match st.privs h.recipientTempHash with
  | none => none
  | some ke =>
    match ke.priv32, h.senderSessionPub.pub32 P, h.senderIdentityPub.pub32 P with
    | some k, some s, some a => some (senderKey P
        (deriveRootKey P (P.dh k a) (P.dh k s) (P.dh bPriv s) none) (P.dhPub k)
        (identityFix P h.senderIdentity bob) h.senderMessageCount.toNat)
    | _, _, _ => none

/-! ### Proof -/

theorem SInv.goneKey {P : Prims} {key : Str} {root op tp fix : Bytes} {k m : Nat} {opened : List Nat}
    {st : MemStore} {s : Sess} (I : SInv P key root op tp fix k opened m st s) {i : Nat} (hi : i < k)
    (hi64 : i < 2 ^ 64) : st.getMessageKey P key true (UInt64.ofNat i) = .error .keyUsed := by
  have := I.le
  unfold MemStore.getMessageKey
  rw [I.sess]
  simp only [ofNat_toNat hi64, I.slen, if_true, I.gone i hi]
  rw [if_neg (by omega)]

theorem PInv.keeps {P : Prims} {L : Link} {K : List Bytes} {G : List Sn} {v : View} {st : MemStore}
    (I : PInv P L K G v st) (hex : v.ex = []) : KeepsOnly P K (L.stateKeyA P) st := by
  intro x hx ke p hs hp
  obtain ⟨ss, s0, h1, h2, h3⟩ := I.state
  refine ⟨ss, h2, ?_⟩
  rcases I.erased x hx (by simp [hex]) ke p hs hp with h | ⟨h, s, h4, h5⟩
  · exact .inl (by rw [h3.next, h]; rfl)
  · rw [h1] at h4; cases h4
    exact .inr ⟨by rw [h3.seen, h]; rfl, by rw [h3.own, h5]⟩

theorem keeps_new {P : Prims} {K : List Bytes} {k : Str} {st : MemStore}
    (h : ∀ x ∈ K, st.skeys (keyHash P x) = none) : KeepsOnly P K k st := by
  intro x hx ke p hs
  rw [h x hx] at hs; cases hs

/-- The keys of a sent message in the sender's store. -/
theorem Dir.spent {P : Prims} {L : Link} {uid : UID} {K Uh : List Bytes} {G : List Sn} {v w : View}
    {recs : List Rec} {got : List Nat} {A B : MemStore} (IA : PInv P L K G v A)
    (D : Dir P L uid Uh G v w recs got) (hlen : recs.length < 2 ^ 62)
    (hB : ∀ (x : Nat) (m : Rec) (s : Sn) (h : Header), x ∈ got → recs[x]? = some m → G[m.j]? = some s →
      Hdr P L s m.i m.nx m.sn h → m.i < 2 ^ 62 → B.getMessageKey P (calcKey P (keyHash P L.bPriv)
        (keyHash P L.aPriv) h.recipientTempHash h.senderSessionPub.hash) false h.senderMessageCount =
        .error .keyUsed)
    (x : Nat) (m : Rec) (hm : recs[x]? = some m) : Spent P L A B m.wire (x ∈ got) := by
  have R := D.ok m (List.mem_of_getElem? hm)
  obtain ⟨s, h, h1, H, h3⟩ := R.hdr
  have hi : m.i < 2 ^ 62 := by have := D.sentle m.j; have := R.cnt; omega
  obtain ⟨n, t, J⟩ := IA.sess m.j s (by have := IA.curlt; have := R.cur; omega) h1
  refine ⟨m.r, h, senderKey P s.root (P.dhPub s.b) (L.fix P) m.i, h3, ?_, fun hx =>
    hB x m s h hx hm h1 H hi⟩
  rw [H.count, H.sess, H.temp]
  exact J.goneKey R.cnt (by omega)

theorem Both.spent {P : Prims} {L : Link} {K : List Bytes} {uidA uidB : UID} {Uh Us : List Bytes}
    {G : List Sn} {v w : View} {A B : MemStore} {ra rb : List Rec} {gotB gotA : List Nat}
    (H : Both P L K uidA uidB Uh Us G v w A B ra rb gotB gotA) (hlen : ra.length < 2 ^ 62) (x : Nat)
    (m : Rec) (hm : ra[x]? = some m) : Spent P L A B m.wire (x ∈ gotB) := by
  refine H.dA.spent H.IA hlen ?_ x m hm
  intro x m s h hx hm hs Hd hi
  have ho := (H.dA.opened x m hm).mpr hx
  have hk : m.j < w.known := by
    rcases Nat.lt_or_ge m.j w.known with h | h
    · exact h
    · rw [H.IB.farO m.j h] at ho; cases ho
  obtain ⟨n, t, J⟩ := H.IB.sess m.j s.flip hk (by rw [List.getElem?_map, hs]; rfl)
  rw [Hd.count, Hd.sess, Hd.temp]
  exact J.usedKey (by omega) ho

/-- Nothing opened is forgotten. -/
theorem Allowed.got {P : Prims} {L : Link} {f f' : Ref} {a : Act} {o : Out} (h : Allowed P L f a o f') :
    (∀ x ∈ f.gotB, x ∈ f'.gotB) ∧ (∀ x ∈ f.gotA, x ∈ f'.gotA) ∧
    (∀ x ∈ openedTo true [a] [o], x ∈ f'.gotB) ∧ (∀ x ∈ openedTo false [a] [o], x ∈ f'.gotA) := by
  cases h <;> simp [openedTo] <;> exact fun x hx => .inr hx

theorem openedTo_cons (b : Bool) (a : Act) (o : Out) (as : List Act) (os : List Out) :
    openedTo b (a :: as) (o :: os) = openedTo b [a] [o] ++ openedTo b as os := by
  cases a with
  | send fromA r => cases o <;> simp [openedTo]
  | deliver toB x k =>
    cases o with
    | got c s g =>
      simp only [openedTo]
      split <;> simp
    | _ => simp [openedTo]

theorem Setting.reach {P : Prims} {L : Link} {uidA uidB : UID} {K : List Bytes} {A0 B0 : MemStore}
    (S : Setting P L uidA uidB K A0 B0) : ∀ (as : List Act) {Uh Us : List Bytes} {t : Talk} {f : Ref}
    {ra rb : List Rec}, Phase P L K uidA uidB A0 B0 Uh Us t f ra rb →
    (∀ a ∈ as, a.OK P L uidA uidB) → ra.length + as.length < 2 ^ 62 → rb.length + as.length < 2 ^ 62 →
    Draws L K Uh Us (draws as) →
    ∃ f' ra' rb' Uh' Us', Phase P L K uidA uidB A0 B0 Uh' Us' (after P L t as) f' ra' rb' ∧
      ra'.length < 2 ^ 62 ∧ rb'.length < 2 ^ 62 ∧
      (∀ x ∈ f.gotB, x ∈ f'.gotB) ∧ (∀ x ∈ f.gotA, x ∈ f'.gotA) ∧
      (∀ x ∈ openedTo true as (talk P L t as), x ∈ f'.gotB) ∧
      (∀ x ∈ openedTo false as (talk P L t as), x ∈ f'.gotA) := by
  intro as
  induction as with
  | nil =>
    intro Uh Us t f ra rb F _ hra hrb _
    exact ⟨f, ra, rb, Uh, Us, F, by simpa using hra, by simpa using hrb, fun _ h => h, fun _ h => h,
      fun _ h => (nomatch h), fun _ h => (nomatch h)⟩
  | cons a as ih =>
    intro Uh Us t f ra rb F ha hra hrb dr
    rw [List.length_cons] at hra hrb
    obtain ⟨f', ra', rb', Uh', Us', e1, e2, e3, e4, e5⟩ := S.step F a as (ha a (by simp)) (by omega)
      (by omega) dr
    obtain ⟨g1, g2, g3, g4⟩ := e1.got
    obtain ⟨f2, ra2, rb2, Uh2, Us2, k1, k2, k3, k4, k5, k6, k7⟩ := ih e2 (fun a h => ha a (by simp [h]))
      (by omega) (by omega) e3
    refine ⟨f2, ra2, rb2, Uh2, Us2, k1, k2, k3, fun x h => k4 x (g1 x h), fun x h => k5 x (g2 x h), ?_, ?_⟩
    · intro x hx
      rw [talk, openedTo_cons] at hx
      rcases List.mem_append.mp hx with h | h
      · exact k4 x (g3 x h)
      · exact k6 x h
    · intro x hx
      rw [talk, openedTo_cons] at hx
      rcases List.mem_append.mp hx with h | h
      · exact k5 x (g4 x h)
      · exact k7 x h

theorem Spent.mono {P : Prims} {L : Link} {X Y : MemStore} {w : Str} {p q : Prop} (h : q → p)
    (S : Spent P L X Y w p) : Spent P L X Y w q := by
  obtain ⟨r, hd, mk, h1, h2, h3⟩ := S
  exact ⟨r, hd, mk, h1, h2, fun hq => h3 (h hq)⟩

theorem start_draws {L : Link} {as : List Act} (hnd : (L.aPriv :: L.bPriv :: L.kPriv :: draws as).Nodup) :
    Draws L (L.aPriv :: L.bPriv :: L.kPriv :: draws as) [] [L.kPriv] (draws as) := by
  simp only [List.nodup_cons, List.mem_cons, not_or] at hnd
  obtain ⟨⟨n1, n2, n3⟩, ⟨n4, n5⟩, n6, n7⟩ := hnd
  refine ⟨fun x h => absurd h (by simp), ?_, ?_, n1, n7⟩
  · intro x hx
    rw [List.mem_singleton] at hx; subst hx
    exact ⟨by simp, fun e => n2 e.symm, fun e => n4 e.symm, n6⟩
  · intro x hx
    exact ⟨by simp [hx], fun e => n3 (e ▸ hx), fun e => n5 (e ▸ hx)⟩

/-- C147: at every point of a conversation, each user's store has the private part of no session key
but those of the current and the next session; the key of a message is gone from the sender's store
as soon as it is sent, and from the recipient's as soon as it was opened. -/
theorem C147_erased_partial {P : Prims} {L : Link} {uidA uidB : UID} {A B : MemStore} (as : List Act)
    (S : Setting P L uidA uidB (L.aPriv :: L.bPriv :: L.kPriv :: draws as) A B)
    (hnd : (L.aPriv :: L.bPriv :: L.kPriv :: draws as).Nodup)
    (hok : ∀ a ∈ as, a.OK P L uidA uidB) (hlen : as.length < 2 ^ 62) (t : Talk)
    (ht : t = after P L ⟨A, B, [], []⟩ as) (outs : List Out) (ho : outs = talk P L ⟨A, B, [], []⟩ as) :
    KeepsOnly P (L.aPriv :: L.bPriv :: L.kPriv :: draws as) (L.stateKeyA P) t.A ∧
    KeepsOnly P (L.aPriv :: L.bPriv :: L.kPriv :: draws as) (L.stateKeyB P) t.B ∧
    (∀ (x : Nat) (w : Str), t.toB[x]? = some w → Spent P L t.A t.B w (x ∈ openedTo true as outs)) ∧
    (∀ (x : Nat) (w : Str), t.toA[x]? = some w → Spent P L.flip t.B t.A w (x ∈ openedTo false as outs)) := by
  subst ht ho
  obtain ⟨f, ra, rb, Uh, Us, F, l1, l2, -, -, g1, g2⟩ := S.reach as
    (.zero (by simp)) hok (by simpa using hlen) (by simpa using hlen) (start_draws hnd)
  generalize after P L ⟨A, B, [], []⟩ as = t at F
  cases F with
  | zero hk =>
    refine ⟨keeps_new S.newA, keeps_new S.newB, ?_, ?_⟩ <;>
      · intro x w h
        simp at h
  | one h1 h2 h3 h4 h5 h6 h7 h8 =>
    refine ⟨h1.keeps h8, keeps_new S.newB, ?_, fun x w h => by simp at h⟩
    intro x w h
    obtain ⟨m, hm, rfl⟩ := get_map h
    exact (h7.spent (B := B) h1 l1 (fun x _ _ _ hx => nomatch hx) x m hm).mono (g1 x)
  | two H hv hw =>
    refine ⟨H.IA.keeps hv, H.IB.keeps hw, ?_, ?_⟩
    · intro x w h
      obtain ⟨m, hm, rfl⟩ := get_map h
      exact (H.spent l1 x m hm).mono (g1 x)
    · intro x w h
      obtain ⟨m, hm, rfl⟩ := get_map h
      exact (H.symm.spent l2 x m hm).mono (g2 x)

theorem handle_privs (P : Prims) {β : Type} (r : Req β) (ms : MemStore) :
    (MemStore.handle P r ms).2.privs = ms.privs := by
  cases r <;> try rfl
  · simp only [MemStore.handle, MemStore.storeSession]
    split
    · rfl
    · split <;> rfl
  · simp only [MemStore.handle, MemStore.delMessageKey]
    split
    · rfl
    · split <;> rfl
  · simp only [MemStore.handle, MemStore.delPrivSessionKey]
    split <;> rfl

theorem run_privs (P : Prims) {α : Type} (p : Prog α) (ms : MemStore) :
    (p.run (MemStore.handle P) ms).2.privs = ms.privs := by
  induction p generalizing ms with
  | ret a => rfl
  | fail e => rfl
  | panic => rfl
  | call r k ih =>
    rw [run_call]
    exact (ih _ _).trans (handle_privs P r ms)

theorem act_keeps (P : Prims) (L : Link) (t : Talk) (a : Act) :
    (act P L t a).1.B.privs = t.B.privs ∧ ∀ w, t.toB[0]? = some w → (act P L t a).1.toB[0]? = some w := by
  have hopen : ∀ (L : Link) fresh m st, (openStep P L fresh m st).2.privs = st.privs := by
    intro L fresh m st
    unfold openStep
    split
    · rfl
    · split
      · rename_i pre rest _
        have := run_privs P (decrypt P ⟨[L.bob], pre, rest, L.nB, fresh⟩) st
        revert this
        split <;> (rename_i e; rw [e]; exact id)
      · rfl
  have hsend : ∀ (L : Link) r st, (sendStep P L r st).2.privs = st.privs := by
    intro L r st
    have := run_privs P (encrypt P (L.encArgs r) r.rnd) st
    unfold sendStep
    revert this
    split <;> (rename_i e; rw [e]; exact id)
  cases a with
  | send fromA r =>
    cases fromA with
    | true =>
      simp only [act]
      split
      · exact ⟨rfl, fun w h => by
          simp only
          rw [List.getElem?_append_left (List.getElem?_eq_some_iff.mp h).1]; exact h⟩
      · exact ⟨rfl, fun _ h => h⟩
    | false =>
      simp only [act]
      split <;> (rename_i e; exact ⟨by have := hsend L.flip r t.B; rw [e] at this; exact this, fun _ h => h⟩)
  | deliver toB x fresh =>
    cases toB with
    | true =>
      simp only [act]
      split
      · exact ⟨rfl, fun _ h => h⟩
      · exact ⟨hopen _ _ _ _, fun _ h => h⟩
    | false =>
      simp only [act]
      split <;> exact ⟨rfl, fun _ h => h⟩

theorem after_keeps (P : Prims) (L : Link) (as : List Act) (t : Talk) :
    (after P L t as).B.privs = t.B.privs ∧
      ∀ w, t.toB[0]? = some w → (after P L t as).toB[0]? = some w := by
  induction as generalizing t with
  | nil => exact ⟨rfl, fun _ h => h⟩
  | cons a as ih =>
    exact ⟨(ih _).1.trans (act_keeps P L t a).1, fun w h => (ih _).2 w ((act_keeps P L t a).2 w h)⟩

/-- C147, negation for the first session: however long the conversation goes on, the key of the first
message can be computed again from the recipient's store, identity key and the message's header: the
private key of the KeyInit stays in the store. -/
theorem C147_first_message_violated {P : Prims} {L : Link} {uidA uidB : UID} {A B : MemStore} (r : Round)
    (as : List Act)
    (S : Setting P L uidA uidB (L.aPriv :: L.bPriv :: L.kPriv :: draws (.send true r :: as)) A B)
    (hnd : (L.aPriv :: L.bPriv :: L.kPriv :: draws (.send true r :: as)).Nodup)
    (hok : (Act.send true r).OK P L uidA uidB) (t : Talk)
    (ht : t = after P L ⟨A, B, [], []⟩ (.send true r :: as)) :
    ∃ w h mk, t.toB[0]? = some w ∧
      w = P.b64 (messageBytes P r.rnd h (P.dhPub L.bPriv) mk r.sigKey r.content) ∧
      recover P t.B L.bPriv L.bob.identity h = some mk := by
  subst ht
  have hP := S.prims
  obtain ⟨A', v, m, e1, e2, e3, e4, e5, e6, -, e7, e8⟩ :=
    S.firstSend hok (by simp) (start_draws hnd)
  have R := e8.ok m (by simp)
  obtain ⟨s, h, h1, H, h3⟩ := R.hdr
  have hj : m.j = 0 := by have := R.cur; omega
  rw [hj] at h1
  obtain rfl : firstSn P L r.rnd.sessPriv = s := Option.some.inj h1
  have hi : m.i = 0 := by have := e8.idx 0 m rfl; omega
  rw [hi] at h3 H
  rw [e2.1] at h3
  have hact : (act P L ⟨A, B, [], []⟩ (.send true r)).1 = ⟨A', B, [m.wire], []⟩ := by
    simp only [act, e1, List.nil_append]
  obtain ⟨k1, k2⟩ := after_keeps P L as ⟨A', B, [m.wire], []⟩
  refine ⟨m.wire, h, _, ?_, h3, ?_⟩
  · simp only [after, hact]
    exact k2 _ rfl
  · simp only [after, hact, recover, k1]
    rw [show h.recipientTempHash = keyHash P L.kPriv from H.temp, S.start.priv]
    simp only [initDHKey_priv32, H.sess, H.idp, initDHKey_public_pub32 P hP, H.count, H.ident]
    rw [hP.dh_comm L.kPriv L.aPriv]
    show some (senderKey P (deriveRootKey P _ (P.dh L.kPriv (P.dhPub r.rnd.sessPriv))
      (P.dh L.bPriv (P.dhPub r.rnd.sessPriv)) none) _ _ _) = _
    rw [hP.dh_comm L.kPriv, hP.dh_comm L.bPriv]
    rfl

end Two
end Verif.Msg

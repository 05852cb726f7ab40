import Verif.Msg.CrossParts
/-
Conversations in which either user, or both, may make the first contact (C148).
Code: msg/encrypt.go, msg/decrypt.go (see Msg/Model.lean, Msg/TwoWayTalk.lean for the calls).
-/
set_option autoImplicit false
namespace Verif.Msg
open Prog
open Wire (Outer newOuter newPre readFirst)
namespace Two

/-! ### The specification -/

/-- The messages sent each way, and which of them were opened. -/
structure Sheet where
  sentA : List Sent
  sentB : List Sent
  gotB : List Nat
  gotA : List Nat

/-- What may happen: both users can send at any time.  A message is opened with exactly what was
sent, once; it is refused only if it was opened before, or if it is too far from the beginning of its
session.  Its number in the header is the number of messages written earlier in the same session. -/
inductive Free (P : Prims) (L : Link) : Sheet → Act → Out → Sheet → Prop where
  | sendA (f r h w) : Written P L r h w → h.senderMessageCount.toNat = inSession f.sentA h →
      Free P L f (.send true r) (.sent w) { f with sentA := f.sentA ++ [⟨r, h⟩] }
  | sendB (f r h w) : Written P L.flip r h w → h.senderMessageCount.toNat = inSession f.sentB h →
      Free P L f (.send false r) (.sent w) { f with sentB := f.sentB ++ [⟨r, h⟩] }
  | noneB (f x k) : f.sentA[x]? = none → Free P L f (.deliver true x k) .nothing f
  | openB (f x k e) : f.sentA[x]? = some e → x ∉ f.gotB →
      Free P L f (.deliver true x k) (.got e.r.content L.alice.identity (sigOf P e.r.sigKey e.r.content))
        { f with gotB := x :: f.gotB }
  | againB (f x k e) : f.sentA[x]? = some e → x ∈ f.gotB → Free P L f (.deliver true x k) .refused f
  | farB (f x k e) : f.sentA[x]? = some e → e.far (effKeys L.nB).toNat →
      Free P L f (.deliver true x k) .refused f
  | noneA (f x k) : f.sentB[x]? = none → Free P L f (.deliver false x k) .nothing f
  | openA (f x k e) : f.sentB[x]? = some e → x ∉ f.gotA →
      Free P L f (.deliver false x k) (.got e.r.content L.bob.identity (sigOf P e.r.sigKey e.r.content))
        { f with gotA := x :: f.gotA }
  | againA (f x k e) : f.sentB[x]? = some e → x ∈ f.gotA → Free P L f (.deliver false x k) .refused f
  | farA (f x k e) : f.sentB[x]? = some e → e.far (effKeys L.nA).toNat →
      Free P L f (.deliver false x k) .refused f

/-- The outcomes of a list of actions are all as they should be. -/
inductive FreeRun (P : Prims) (L : Link) : Sheet → List Act → List Out → Prop where
  | nil (f) : FreeRun P L f [] []
  | cons {f f' a o as os} : Free P L f a o f' → FreeRun P L f' as os → FreeRun P L f (a :: as) (o :: os)

/-- The setting: the two users have never communicated with each other, and each has the other's
KeyInit message (`L.kPriv` is the second user's KeyInit key, `k` the first user's).  The first user is
the one with the smaller identity. -/
structure Contact (P : Prims) (L : Link) (k : Bytes) (uidA uidB : UID) (K : List Bytes) (A B : MemStore) :
    Prop where
  prims : P.Good
  a : L.OK P uidA
  b : L.flip.OK P uidB
  keysA : Keys P L K
  keysB : Keys P L.flip K
  parse : ∀ h : Header, h.Clean → (P.marshal h).length = 7152 → P.parse (P.marshal h) = some h
  order : L.alice.identity < L.bob.identity
  meetA : L.Meet P K A B
  meetB : (L.back k).Meet P K B A
  privA : ∀ x ∈ K, ∀ ke, A.privs (keyHash P x) = some ke → ke = initDHKey P x
  privB : ∀ x ∈ K, ∀ ke, B.privs (keyHash P x) = some ke → ke = initDHKey P x
  newA : ∀ x ∈ K, A.skeys (keyHash P x) = none
  newB : ∀ x ∈ K, B.skeys (keyHash P x) = none

/-! ### Proof -/

theorem RecOK.kp {P : Prims} {L : Link} {Uh : List Bytes} {G : List Sn} {v : View} {m : Rec}
    (h : RecOK P L Uh G v m) (k : Bytes) : RecOK P { L with kPriv := k } Uh G v m := by
  obtain ⟨s, h1, h2, h3⟩ := h.hd
  exact ⟨⟨s, h1, ⟨h2.len, h2.clean, h2.ident, h2.uid, h2.sess, h2.idp, h2.temp, h2.count, h2.next,
    h2.seen⟩, h3⟩, h.cur, h.cnt, h.next, h.seen, h.head⟩

theorem Dir.kp {P : Prims} {L : Link} {uid : UID} {Uh : List Bytes} {G : List Sn} {v w : View}
    {recs : List Rec} {got : List Nat} (D : Dir P L uid Uh G v w recs got) (k : Bytes) :
    Dir P { L with kPriv := k } uid Uh G v w recs got :=
  ⟨fun m hm => (D.ok m hm).kp k, fun m hm => ⟨(D.rok m hm).1, (D.rok m hm).2.kp k⟩, D.num, D.cnts, D.diff,
    D.opened, D.opn, D.gotlt⟩

/-- The second user contacted the first one. -/
theorem Both.back {P : Prims} {L : Link} {k : Bytes} {K : List Bytes} {uidA uidB : UID} {Uh Us : List Bytes}
    {G : List Sn} {v w : View} {A B : MemStore} {ra rb : List Rec} {gotB gotA : List Nat}
    (H : Both P (L.back k) K uidB uidA Uh Us G w v B A rb ra gotA gotB) :
    Both P L K uidA uidB Uh Us (G.map Sn.flip) v w A B ra rb gotB gotA := by
  have S := H.symm
  exact ⟨S.IA.kp L.kPriv, S.IB.kp L.kPriv, S.rel, S.pool, S.dA.kp L.kPriv, S.dB.kp L.kPriv⟩

theorem Draws.skip {L : Link} {K Uh Us rest : List Bytes} {a : Bytes} (h : Draws L K Uh Us (a :: rest)) :
    Draws L K Uh Us rest :=
  ⟨fun x hx => ⟨(h.h x hx).1, (h.h x hx).2.1, (h.h x hx).2.2.1, (h.h x hx).2.2.2.1,
      fun e => (h.h x hx).2.2.2.2 (by simp [e])⟩,
    fun x hx => ⟨(h.s x hx).1, (h.s x hx).2.1, (h.s x hx).2.2.1, fun e => (h.s x hx).2.2.2 (by simp [e])⟩,
    fun x hx => h.r x (by simp [hx]), h.ab, (List.nodup_cons.mp h.nd).2⟩

/-- The second user has the session of the own first contact, in which `n` messages were sent, beside
those of the conversation. -/
def Aside (P : Prims) (M : Link) (s : Bytes) (n : Nat) (w : View) : Prop :=
  ∃ m t, SInv P (M.skey P s M.kPriv) (firstSn P M s).root (P.dhPub s) (P.dhPub M.kPriv) (M.fix P) n [] m
    { MemStore.new with sessions := w.base } t

/-- The second user's own first contact, made before anything was received from the first user. -/
structure Crossed (P : Prims) (L : Link) (k : Bytes) (uidB : UID) (Uh Us : List Bytes) (v w : View) (s : Bytes)
    (u : View) (rs : List Rec) (o gS : List Nat) : Prop where
  ex : w.ex = s :: u.nx.toList
  aside : Aside P (L.back k) s (u.sent 0) w
  back : Back P L k uidB Uh Us v s u rs o gS

theorem Crossed.more {P : Prims} {L : Link} {k : Bytes} {uidB : UID} {Uh Us Uh' Us' : List Bytes} {v w : View}
    {s : Bytes} {u : View} {rs : List Rec} {o gS : List Nat} (H : Crossed P L k uidB Uh Us v w s u rs o gS)
    (h1 : ∀ x ∈ Uh, x ∈ Uh') (h2 : ∀ x ∈ Us, x ∈ Us') : Crossed P L k uidB Uh' Us' v w s u rs o gS :=
  ⟨H.ex, H.aside, H.back.more h1 h2⟩

theorem Crossed.move {P : Prims} {L : Link} {k : Bytes} {uidB : UID} {Uh Us : List Bytes} {v v' w w' : View}
    {s : Bytes} {u : View} {rs : List Rec} {o gS : List Nat} (H : Crossed P L k uidB Uh Us v w s u rs o gS)
    (hb : v'.base = v.base) (hx : v'.ex = v.ex) (hb' : w'.base = w.base) (hx' : w'.ex = w.ex) :
    Crossed P L k uidB Uh Us v' w' s u rs o gS :=
  ⟨hx'.trans H.ex, by have := H.aside; unfold Aside at this ⊢; rw [hb']; exact this, H.back.move hb hx⟩

/-- Where the conversation stands; `c` is the session key of the second user's own first contact, if
it crossed that of the first user. -/
inductive Cross (P : Prims) (L : Link) (k : Bytes) (K : List Bytes) (uidA uidB : UID) (A0 B0 : MemStore)
    (Uh Us : List Bytes) : Option Bytes → Talk → Sheet → List Rec → List Rec → Prop where
  | zero : L.kPriv ∈ Us → k ∈ Us →
      Cross P L k K uidA uidB A0 B0 Uh Us none ⟨A0, B0, [], []⟩ ⟨[], [], [], []⟩ [] []
  | oneA {s v A ra} : First P L k K Us [k] s v A → v.base = A0.sessions →
      Dir P L uidA Uh [firstSn P L s] v (seenOf []) ra [] →
      Cross P L k K uidA uidB A0 B0 Uh Us none ⟨A, B0, ra.map Rec.wire, []⟩ ⟨ra.map Rec.e, [], [], []⟩ ra []
  | oneB {s u B rb} : First P (L.back k) L.kPriv K Us [] s u B → u.base = B0.sessions →
      Dir P (L.back k) uidB Uh [firstSn P (L.back k) s] u (seenOf []) rb [] →
      Cross P L k K uidA uidB A0 B0 Uh Us none ⟨A0, B, [], rb.map Rec.wire⟩ ⟨[], rb.map Rec.e, [], []⟩ [] rb
  | cross {s v A ra s' u B rb o gotA} : First P L k K Us [k] s v A →
      Dir P L uidA Uh [firstSn P L s] v (seenOf []) ra [] →
      First P (L.back k) L.kPriv K Us [] s' u B → u.base = B0.sessions →
      Back P L k uidB Uh Us v s' u rb o gotA →
      Cross P L k K uidA uidB A0 B0 Uh Us (some s') ⟨A, B, ra.map Rec.wire, rb.map Rec.wire⟩
        ⟨ra.map Rec.e, rb.map Rec.e, [], gotA⟩ ra rb
  | two {c G v w A B ra rs rb gotB gotA gotM s' u o gS} :
      Both P L K uidA uidB Uh Us G v w A B ra rb gotB gotM → (∀ x ∈ v.ex, x = k) →
      ((c = none ∧ w.ex = [] ∧ rs = []) ∨ (c = some s' ∧ Crossed P L k uidB Uh Us v w s' u rs o gS)) →
      (∀ x, x ∈ gotA ↔ (x < rs.length ∧ x ∈ gS) ∨ (rs.length ≤ x ∧ x - rs.length ∈ gotM)) →
      Cross P L k K uidA uidB A0 B0 Uh Us c ⟨A, B, ra.map Rec.wire, (rs ++ rb).map Rec.wire⟩
        ⟨ra.map Rec.e, (rs ++ rb).map Rec.e, gotB, gotA⟩ ra (rs ++ rb)

theorem entry {m : Rec} {r : Round} (h : m.r = r) : m.e = ⟨r, m.h⟩ := by rw [← h]; rfl

theorem map_snoc {α β : Type} (f : α → β) (l : List α) {m : α} {b : β} (h : f m = b) :
    l.map f ++ [b] = (l ++ [m]).map f := by
  rw [List.map_append, ← h]; rfl

section
variable {P : Prims} {L : Link} {k : Bytes} {uidA uidB : UID} {K : List Bytes} {A0 B0 : MemStore}

theorem Contact.keysM (S : Contact P L k uidA uidB K A0 B0) : Keys P (L.back k) K := S.keysB.kp k
theorem Contact.keysM' (S : Contact P L k uidA uidB K A0 B0) : Keys P (L.back k).flip K := S.keysA.kp k
theorem Contact.okM (S : Contact P L k uidA uidB K A0 B0) : (L.back k).OK P uidB := LinkOK.kp S.b k
theorem Contact.okM' (S : Contact P L k uidA uidB K A0 B0) : (L.back k).flip.OK P uidA := LinkOK.kp S.a k

theorem Contact.sendA (S : Contact P L k uidA uidB K A0 B0) {Uh Us : List Bytes} {c : Option Bytes} {t : Talk} {f : Sheet}
    {ra rb : List Rec} (F : Cross P L k K uidA uidB A0 B0 Uh Us c t f ra rb) (r : Round) (as : List Act)
    (ha : r.OK P uidA ∧ Fits P L r) (hra : ra.length < 2 ^ 62)
    (dr : Draws L K Uh Us (draws (.send true r :: as))) :
    ∃ f' ra' rb' Uh' Us' c', Free P L f (.send true r) (act P L t (.send true r)).2 f' ∧
      Cross P L k K uidA uidB A0 B0 Uh' Us' c' (act P L t (.send true r)).1 f' ra' rb' ∧
      Draws L K Uh' Us' (draws as) ∧ ra'.length ≤ ra.length + 1 ∧ rb'.length ≤ rb.length + 1 ∧ (c = none ∨ c' = c) := by
  have hP := S.prims
  have dr' := dr.send
  have hU : ∀ x ∈ Us, x ∈ r.rnd.sessPriv :: r.rnd.nextPriv :: Us := fun x h => by simp [h]
  have hH : ∀ x ∈ Uh, x ∈ r.rnd.headerPriv :: Uh := fun x h => by simp [h]
  cases F with
  | zero h1 h2 =>
    obtain ⟨A', v, m, e1, e2, e3, e4, e5⟩ := First.start hP S.a S.keysA (k := k) (ex := [k]) S.meetA.stA
      S.meetA.sessA S.meetA.pub S.privA S.newA ha h1 h2 (by simpa using h2) dr
    simp only [act, e1]
    obtain ⟨n1, n2⟩ := e5.note (ra := []) S.keysA e3.inv (by simp)
    rw [e2] at n1
    refine ⟨_, [m], [], _, _, none, .sendA _ _ _ _ n1 n2, ?_, dr', by simp, by simp, by simp⟩
    simp only
    rw [show ([] : List Sent) ++ [⟨r, m.h⟩] = [m].map Rec.e by rw [← e2]; rfl]
    exact .oneA e3 e4 e5
  | oneA h1 h2 h3 =>
    obtain ⟨A', v', m, e1, e2, e3, e4, e5⟩ := h1.send hP S.a S.keysA ha h3 hra dr
    simp only [act, e1]
    obtain ⟨n1, n2⟩ := e5.note S.keysA e3.inv hra
    rw [e2] at n1
    refine ⟨_, ra ++ [m], [], _, _, none, .sendA _ _ _ _ n1 n2, ?_, dr', by simp, by simp, by simp⟩
    simp only
    rw [map_snoc Rec.e ra (entry e2), map_snoc Rec.wire ra rfl]
    exact .oneA e3 (e4.trans h2) e5
  | @oneB s' u B _ h1 h2 h3 =>
    have hk : L.kPriv ∈ Us := h1.kU
    have hkA : k ∈ Us := h1.key
    obtain ⟨A', v, m, e1, e2, e3, e4, e5⟩ := First.start hP S.a S.keysA (k := k) (ex := [k]) S.meetA.stA
      S.meetA.sessA S.meetA.pub S.privA S.newA ha hk hkA (by simpa using hkA) dr
    simp only [act, e1]
    obtain ⟨n1, n2⟩ := e5.note (ra := []) S.keysA e3.inv (by simp)
    rw [e2] at n1
    refine ⟨_, [m], rb, _, _, some s', .sendA _ _ _ _ n1 n2, ?_, dr', by simp, by simp, by simp⟩
    simp only
    rw [show ([] : List Sent) ++ [⟨r, m.h⟩] = [m].map Rec.e by rw [← e2]; rfl]
    have hs := h1.pool.sess (firstSn P (L.back k) s') (by simp)
    refine .cross e3 e5 (h1.more hU) h2 ⟨by rw [e3.ex]; simp, by simp [hkA], ?_, hs.2.2, h1.cur, .inl ⟨?_, rfl⟩,
      h3.more hH⟩
    · exact hU _ hs.1
    · rw [e4]
      exact S.meetA.sessA k (dr.s _ hkA).1 s' (dr.s _ hs.1).1
  | @cross s v A _ s' u B _ o gotA h1 h2 h3 h4 h5 =>
    obtain ⟨A', v', m, e1, e2, e3, e4, e5⟩ := h1.send hP S.a S.keysA ha h2 hra dr
    simp only [act, e1]
    obtain ⟨n1, n2⟩ := e5.note S.keysA e3.inv hra
    rw [e2] at n1
    refine ⟨_, ra ++ [m], rb, _, _, some s', .sendA _ _ _ _ n1 n2, ?_, dr', by simp, by simp, by simp⟩
    simp only
    rw [map_snoc Rec.e ra (entry e2), map_snoc Rec.wire ra rfl]
    exact .cross e3 e5 (h3.more hU) h4 ((h5.more hH hU).move e4 (e3.ex.trans h1.ex.symm))
  | @two _ G v w A B _ rs rb gotB gotA gotM s' u o gS h1 hvk h2 h3 =>
    obtain ⟨A', v', m, e1, ⟨e2, -, -, -, -, -, -, eb, ex⟩, e3⟩ := h1.send hP S.a S.keysA ha hra dr
    simp only [act, e1]
    obtain ⟨n1, n2⟩ := e3.dA.note S.keysA e3.IA hra
    rw [e2] at n1
    refine ⟨_, ra ++ [m], rs ++ rb, _, _, c, .sendA _ _ _ _ n1 n2, ?_, dr', by simp, by simp, by simp⟩
    simp only
    rw [map_snoc Rec.e ra (entry e2), map_snoc Rec.wire ra rfl]
    exact .two e3 (by rw [ex]; exact hvk) (h2.imp id fun h => ⟨h.1, (h.2.more hH hU).move eb ex rfl rfl⟩) h3

theorem Contact.sendB (S : Contact P L k uidA uidB K A0 B0) {Uh Us : List Bytes} {c : Option Bytes} {t : Talk} {f : Sheet}
    {ra rb : List Rec} (F : Cross P L k K uidA uidB A0 B0 Uh Us c t f ra rb) (r : Round) (as : List Act)
    (ha : r.OK P uidB ∧ Fits P L.flip r) (hrb : rb.length < 2 ^ 62)
    (dr : Draws L K Uh Us (draws (.send false r :: as))) :
    ∃ f' ra' rb' Uh' Us' c', Free P L f (.send false r) (act P L t (.send false r)).2 f' ∧
      Cross P L k K uidA uidB A0 B0 Uh' Us' c' (act P L t (.send false r)).1 f' ra' rb' ∧
      Draws L K Uh' Us' (draws as) ∧ ra'.length ≤ ra.length + 1 ∧ rb'.length ≤ rb.length + 1 ∧ (c = none ∨ c' = c) := by
  have hP := S.prims
  have dr' := dr.send
  have drM : Draws (L.back k) K Uh Us (draws (.send false r :: as)) := dr.symm.kp k
  have haM : r.OK P uidB ∧ Fits P (L.back k) r := ⟨ha.1, ha.2.kp k⟩
  have hU : ∀ x ∈ Us, x ∈ r.rnd.sessPriv :: r.rnd.nextPriv :: Us := fun x h => by simp [h]
  have hH : ∀ x ∈ Uh, x ∈ r.rnd.headerPriv :: Uh := fun x h => by simp [h]
  cases F with
  | zero h1 h2 =>
    obtain ⟨B', u, m, e1, e2, e3, e4, e5⟩ := First.start hP S.okM S.keysM (k := L.kPriv) (ex := []) S.meetB.stA
      S.meetB.sessA S.meetB.pub S.privB S.newB haM h2 h1 (by simp) drM
    rw [show sendStep P (L.back k) r B0 = sendStep P L.flip r B0 from rfl] at e1
    simp only [act, e1]
    obtain ⟨n1, n2⟩ := e5.note (ra := []) S.keysM e3.inv (by simp)
    rw [e2] at n1
    refine ⟨_, [], [m], _, _, none, .sendB _ _ _ _ n1 n2, ?_, dr', by simp, by simp, by simp⟩
    simp only
    rw [show ([] : List Sent) ++ [⟨r, m.h⟩] = [m].map Rec.e by rw [← e2]; rfl]
    exact .oneB e3 e4 e5
  | @oneA s v A _ h1 h2 h3 =>
    have hk : L.kPriv ∈ Us := h1.key
    have hkA : k ∈ Us := h1.kU
    obtain ⟨B', u, m, e1, e2, e3, e4, e5⟩ := First.start hP S.okM S.keysM (k := L.kPriv) (ex := []) S.meetB.stA
      S.meetB.sessA S.meetB.pub S.privB S.newB haM hkA hk (by simp) drM
    rw [show sendStep P (L.back k) r B0 = sendStep P L.flip r B0 from rfl] at e1
    simp only [act, e1]
    obtain ⟨n1, n2⟩ := e5.note (ra := []) S.keysM e3.inv (by simp)
    rw [e2] at n1
    refine ⟨_, ra, [m], _, _, some r.rnd.sessPriv, .sendB _ _ _ _ n1 n2, ?_, dr', by simp, by simp, by simp⟩
    simp only
    rw [show ([] : List Sent) ++ [⟨r, m.h⟩] = [m].map Rec.e by rw [← e2]; rfl]
    have hs := e3.pool.sess (firstSn P (L.back k) r.rnd.sessPriv) (by simp)
    refine .cross (h1.more hU) (h3.more hH) e3 e4 ⟨by rw [h1.ex]; simp, by simp [hkA], hs.1, hs.2.2, e3.cur,
      .inl ⟨?_, rfl⟩, e5⟩
    rw [h2]
    exact S.meetA.sessA k (dr.s _ hkA).1 r.rnd.sessPriv (dr.r _ (by simp [draws])).1
  | @oneB s' u B _ h1 h2 h3 =>
    obtain ⟨B', u', m, e1, e2, e3, e4, e5⟩ := h1.send hP S.okM S.keysM haM h3 hrb drM
    rw [show sendStep P (L.back k) r B = sendStep P L.flip r B from rfl] at e1
    simp only [act, e1]
    obtain ⟨n1, n2⟩ := e5.note S.keysM e3.inv hrb
    rw [e2] at n1
    refine ⟨_, [], rb ++ [m], _, _, none, .sendB _ _ _ _ n1 n2, ?_, dr', by simp, by simp, by simp⟩
    simp only
    rw [map_snoc Rec.e rb (entry e2), map_snoc Rec.wire rb rfl]
    exact .oneB e3 (e4.trans h2) e5
  | @cross s v A _ s' u B _ o gotA h1 h2 h3 h4 h5 =>
    obtain ⟨B', u', m, e1, e2, e3, e4, e5⟩ := h3.send hP S.okM S.keysM haM h5.dir hrb drM
    rw [show sendStep P (L.back k) r B = sendStep P L.flip r B from rfl] at e1
    simp only [act, e1]
    obtain ⟨n1, n2⟩ := e5.note S.keysM e3.inv hrb
    rw [e2] at n1
    refine ⟨_, ra, rb ++ [m], _, _, some s', .sendB _ _ _ _ n1 n2, ?_, dr', by simp, by simp, by simp⟩
    simp only
    rw [map_snoc Rec.e rb (entry e2), map_snoc Rec.wire rb rfl]
    exact .cross (h1.more hU) (h2.more hH) e3 (e4.trans h4)
      ⟨h5.ex, hU _ h5.kU, hU _ h5.sU, h5.ne, e3.cur, h5.bes, e5⟩
  | @two _ G v w A B _ rs rb gotB gotA gotM s' u o gS h1 hvk h2 h3 =>
    have hlen : rb.length < 2 ^ 62 := by rw [List.length_append] at hrb; omega
    obtain ⟨B', w', m, e1, ⟨e2, -, -, -, -, -, -, eb, ex⟩, e3⟩ := h1.symm.send hP S.b S.keysB ha hlen dr.symm
    simp only [act, e1]
    obtain ⟨n1, n2⟩ := e3.dA.note S.keysB e3.IA hlen
    rw [e2] at n1
    have n2 : m.h.senderMessageCount.toNat = inSession ((rs ++ rb).map Rec.e) m.h := by
      rw [n2, List.map_append]
      unfold inSession
      rw [List.countP_append]
      rcases h2 with ⟨-, -, rfl⟩ | ⟨-, hcr⟩
      · rw [List.map_nil, List.countP_nil]; omega
      · have hb := hcr.back
        have hx : s' ∈ w.ex := by rw [hcr.ex]; simp
        have hz : (rs.map Rec.e).countP (fun e => e.h.senderSessionPub.hash == m.h.senderSessionPub.hash) = 0 := by
          refine List.countP_eq_zero.mpr ?_
          intro e he
          obtain ⟨m', hm', rfl⟩ := List.mem_map.mp he
          obtain ⟨s1, hs1, H1, -⟩ := (hb.dir.ok m' hm').hd
          have hs1 := List.mem_of_getElem? hs1
          rw [List.mem_singleton] at hs1
          obtain ⟨s2, hs2, H2, -⟩ := (e3.dA.ok m (by simp)).hd
          have hs2 := List.mem_of_getElem? hs2
          have q1 : m.h.senderSessionPub.hash = keyHash P s2.a := by rw [H2.sess]; rfl
          have q2 : m'.h.senderSessionPub.hash = keyHash P s' := by rw [H1.sess, hs1]; rfl
          simp only [Rec.e, beq_iff_eq, q1, q2]
          intro e
          have := S.keysB.inj _ (dr.s _ hb.sU).1 _ (e3.IA.mem s2 hs2).1 e
          exact e3.IA.exd s2 hs2 (by rw [ex, ← this]; exact hx)
        rw [hz]; omega
    refine ⟨_, ra, rs ++ (rb ++ [m]), _, _, c, .sendB _ _ _ _ n1 n2, ?_, dr', by simp,
      by simp only [List.length_append, List.length_singleton]; omega, by simp⟩
    simp only
    rw [map_snoc Rec.e _ (entry e2), map_snoc Rec.wire _ rfl, List.append_assoc]
    have e3 := e3.symm
    rw [map_flip_flip] at e3
    exact .two e3 hvk (h2.imp (fun h => ⟨h.1, ex.trans h.2.1, h.2.2⟩) fun h => ⟨h.1, (h.2.more hH hU).move rfl rfl eb ex⟩) h3

theorem Contact.deliverB (S : Contact P L k uidA uidB K A0 B0) {Uh Us : List Bytes} {c : Option Bytes} {t : Talk} {f : Sheet}
    {ra rb : List Rec} (F : Cross P L k K uidA uidB A0 B0 Uh Us c t f ra rb) (x : Nat) (fresh : Bytes)
    (as : List Act) (hra : ra.length < 2 ^ 62) (hrb : rb.length < 2 ^ 62) (hB : t.B.privs = B0.privs)
    (dr : Draws L K Uh Us (draws (.deliver true x fresh :: as))) :
    ∃ f' ra' rb' Uh' Us' c', Free P L f (.deliver true x fresh) (act P L t (.deliver true x fresh)).2 f' ∧
      Cross P L k K uidA uidB A0 B0 Uh' Us' c' (act P L t (.deliver true x fresh)).1 f' ra' rb' ∧
      Draws L K Uh' Us' (draws as) ∧ ra'.length ≤ ra.length + 1 ∧ rb'.length ≤ rb.length + 1 ∧ (c = none ∨ c' = c) := by
  have hP := S.prims
  have dr' := dr.deliver
  have hU : ∀ y ∈ Us, y ∈ fresh :: Us := fun y h => by simp [h]
  have dr0 : Draws L K Uh Us (draws as) := dr.skip
  have hpriv : t.B.privs (keyHash P L.kPriv) = some (initDHKey P L.kPriv) := by rw [hB]; exact S.meetA.priv
  cases F with
  | zero h1 h2 =>
    exact ⟨_, [], [], Uh, Us, _, .noneB _ _ _ rfl, .zero h1 h2, dr0, by simp, by simp, by simp⟩
  | @oneA s v A _ h1 h2 h3 =>
    simp only [act]
    cases hw0 : (ra.map Rec.wire)[x]? with
    | none =>
      exact ⟨_, ra, [], Uh, Us, _, .noneB _ _ _ (get_none Rec.e hw0), .oneA h1 h2 h3, dr0, by simp, by simp, by simp⟩
    | some w =>
      obtain ⟨m, hm, rfl⟩ := get_map hw0
      have hfm : (ra.map Rec.e)[x]? = some m.e := by rw [List.getElem?_map, hm]; rfl
      obtain ⟨B', G', w', ⟨⟨hwx, -⟩, -⟩, H⟩ := first_deliver hP S.a S.b S.keysB S.parse (ex := [])
        (fun ss h => by rw [S.meetA.stB] at h; cases h) (fun y hy _ x hx => S.meetA.sessB y hy x hx)
        S.meetA.priv S.privB (fun x hx _ ke p h => by rw [S.newB x hx] at h; cases h) h1.inv h1.cur h1.sn
        h1.opened h1.key (by simp) ⟨h1.pool.sess, h1.pool.nv, fun y hy => (nomatch hy), h1.pool.ev,
          fun y hy => absurd hy (by simp [view0])⟩
        (h3.later (w' := view0 B0.sessions [] false) (Later.refl _ _) (fun _ h => h) rfl seenOf_nil.symm)
        hra dr hm
      simp only
      rcases H with ⟨e1, e2⟩ | ⟨e0, e1, e2⟩
      · rw [e1]
        exact ⟨_, ra, [] ++ [], Uh, fresh :: Us, _, .openB _ _ _ m.e hfm (by exact List.not_mem_nil),
          .two (rs := []) (s' := fresh) (u := v) (o := []) (gS := []) e2
            (by rw [h1.ex]; simp) (.inl ⟨rfl, hwx, rfl⟩) (by simp), dr', by simp,
          by simp, by simp⟩
      · rw [e1]
        exact ⟨_, ra, [] ++ [], Uh, fresh :: Us, _, .farB _ _ _ _ hfm (h3.far hm hra e0),
          .two (rs := []) (s' := fresh) (u := v) (o := []) (gS := []) e2
            (by rw [h1.ex]; simp) (.inl ⟨rfl, hwx, rfl⟩) (by simp), dr', by simp,
          by simp, by simp⟩
  | oneB h1 h2 h3 =>
    exact ⟨_, [], rb, Uh, Us, _, .noneB _ _ _ rfl, .oneB h1 h2 h3, dr0, by simp, by simp, by simp⟩
  | @cross s v A _ s' u B _ o gotA h1 h2 h3 h4 h5 =>
    simp only [act]
    cases hw0 : (ra.map Rec.wire)[x]? with
    | none =>
      exact ⟨_, ra, rb, Uh, Us, _, .noneB _ _ _ (get_none Rec.e hw0), .cross h1 h2 h3 h4 h5, dr0, by simp, by simp, by simp⟩
    | some w =>
      obtain ⟨m, hm, rfl⟩ := get_map hw0
      have hfm : (ra.map Rec.e)[x]? = some m.e := by rw [List.getElem?_map, hm]; rfl
      have hs' := h3.pool.sess (firstSn P (L.back k) s') (by simp)
      obtain ⟨B', G', w', ⟨⟨hwx, hwb⟩, -⟩, H⟩ := first_deliver hP S.a S.b S.keysB S.parse (B := B) (ex := s' :: u.nx.toList)
        (by
          intro ss hss
          obtain ⟨ss', s0, -, q2, q3⟩ := h3.inv.state
          have : some ss' = some ss := q2.symm.trans hss
          cases this
          exact ⟨q3.ki.trans h3.ki, S.order⟩)
        (by
          intro y hy hyx z hz
          refine (h3.inv.only _ ?_).trans ((congrFun h4 _).trans (S.meetA.sessB y hy z hz))
          intro j s1 _ hj e
          have hs1 := List.mem_of_getElem? hj
          have hK1 := h3.inv.mem s1 hs1
          rw [List.mem_singleton] at hs1
          have := (S.keysB.skey _ hy _ hz _ hK1.1 _ hK1.2 e).1
          subst hs1
          exact hyx (by rw [this]; simp [firstSn]))
        hpriv h3.inv.privs
        (by
          intro y hy hyx ke p hp
          apply Classical.byContradiction
          intro hne
          rcases h3.inv.erased y hy (by rw [h3.ex]; simp) ke p hp hne with q | ⟨-, s1, q1, q2⟩
          · exact hyx (by rw [q]; simp)
          · have hs1 := List.mem_of_getElem? q1
            rw [List.mem_singleton] at hs1
            subst hs1
            exact hyx (by rw [← q2]; simp [firstSn]))
        h1.inv h1.cur h1.sn h1.opened h1.key
        (by
          intro h
          rcases List.mem_cons.mp h with h | h
          · exact h3.away.1 h.symm
          · exact h3.away.2 (Option.mem_toList.mp h))
        ⟨h1.pool.sess, h1.pool.nv, fun y hy => (nomatch hy), h1.pool.ev, (by
          intro y hy
          rcases List.mem_cons.mp hy with h | h
          · rw [h]; exact hs'.1
          · exact h3.pool.nv y (Option.mem_toList.mp h))⟩
        (h2.later (w' := view0 B.sessions (s' :: u.nx.toList) false) (Later.refl _ _) (fun _ h => h) rfl
          seenOf_nil.symm)
        hra dr hm
      have hb : Crossed P L k uidB Uh (fresh :: Us) v w' s' u rb o gotA := by
        refine ⟨hwx, ?_, h5.more (fun _ h => h) hU⟩
        have hk0 : 0 < u.known := by have := h3.inv.curlt; omega
        obtain ⟨n, t, J⟩ := h3.inv.sess 0 _ hk0 rfl
        rw [h3.opened] at J
        exact ⟨n, t, J.moved (congrFun hwb _)⟩
      have hvk : ∀ x ∈ v.ex, x = k := by rw [h1.ex]; simp
      have hg : ∀ z, z ∈ gotA ↔ (z < rb.length ∧ z ∈ gotA) ∨ (rb.length ≤ z ∧ z - rb.length ∈ ([] : List Nat)) := by
        intro z
        constructor
        · exact fun h => .inl ⟨h5.dir.gotlt z h, h⟩
        · rintro (⟨-, h⟩ | ⟨-, h⟩)
          · exact h
          · cases h
      simp only
      rcases H with ⟨e1, e2⟩ | ⟨e0, e1, e2⟩
      · rw [e1]
        refine ⟨_, ra, rb ++ [], Uh, fresh :: Us, some s', .openB _ _ _ m.e hfm (by exact List.not_mem_nil), ?_, dr', by simp, by simp, by simp⟩
        have J := Cross.two (A0 := A0) (B0 := B0) e2 hvk (.inr ⟨rfl, hb⟩) hg
        simp only [List.append_nil] at J ⊢
        exact J
      · rw [e1]
        refine ⟨_, ra, rb ++ [], Uh, fresh :: Us, some s', .farB _ _ _ _ hfm (h2.far hm hra e0), ?_, dr', by simp, by simp, by simp⟩
        have J := Cross.two (A0 := A0) (B0 := B0) e2 hvk (.inr ⟨rfl, hb⟩) hg
        simp only [List.append_nil] at J ⊢
        exact J
  | @two _ G v w A B _ rs rb gotB gotA gotM s' u o gS h1 hvk h2 h3 =>
    have hlen : rb.length < 2 ^ 62 := by rw [List.length_append] at hrb; omega
    simp only [act]
    cases hw0 : (ra.map Rec.wire)[x]? with
    | none =>
      exact ⟨_, ra, rs ++ rb, Uh, Us, _, .noneB _ _ _ (get_none Rec.e hw0), .two h1 hvk h2 h3, dr0, by simp, by simp, by simp⟩
    | some w0 =>
      obtain ⟨m, hm, rfl⟩ := get_map hw0
      have hfm : (ra.map Rec.e)[x]? = some m.e := by rw [List.getElem?_map, hm]; rfl
      obtain ⟨B', G', w', ⟨-, -, -, -, -, eb, ex⟩, H⟩ := h1.deliver hP S.a S.b S.keysB S.parse hra hlen dr hm
      have hb : (c = none ∧ w'.ex = [] ∧ rs = []) ∨
          (c = some s' ∧ Crossed P L k uidB Uh (fresh :: Us) v w' s' u rs o gS) :=
        h2.imp (fun h => ⟨h.1, ex.trans h.2.1, h.2.2⟩) fun h =>
          ⟨h.1, (h.2.more (fun _ h => h) hU).move rfl rfl eb ex⟩
      simp only
      rcases H with ⟨e0, e1, e2⟩ | ⟨e0, e1, e2⟩
      · rw [e1]
        exact ⟨_, ra, rs ++ rb, Uh, fresh :: Us, _, .openB _ _ _ m.e hfm e0, .two e2 hvk hb h3, dr', by simp, by simp, by simp⟩
      · rw [e1]
        rcases e0 with e0 | e0
        · exact ⟨_, ra, rs ++ rb, Uh, fresh :: Us, _, .againB _ _ _ _ hfm e0, .two e2 hvk hb h3, dr', by simp, by simp, by simp⟩
        · exact ⟨_, ra, rs ++ rb, Uh, fresh :: Us, _, .farB _ _ _ _ hfm (h1.dA.far hm hra e0), .two e2 hvk hb h3, dr', by simp, by simp, by simp⟩

theorem Contact.deliverA (S : Contact P L k uidA uidB K A0 B0) {Uh Us : List Bytes} {c : Option Bytes} {t : Talk} {f : Sheet}
    {ra rb : List Rec} (F : Cross P L k K uidA uidB A0 B0 Uh Us c t f ra rb) (x : Nat) (fresh : Bytes)
    (as : List Act) (hra : ra.length < 2 ^ 62) (hrb : rb.length < 2 ^ 62) (hA : t.A.privs = A0.privs)
    (dr : Draws L K Uh Us (draws (.deliver false x fresh :: as))) :
    ∃ f' ra' rb' Uh' Us' c', Free P L f (.deliver false x fresh) (act P L t (.deliver false x fresh)).2 f' ∧
      Cross P L k K uidA uidB A0 B0 Uh' Us' c' (act P L t (.deliver false x fresh)).1 f' ra' rb' ∧
      Draws L K Uh' Us' (draws as) ∧ ra'.length ≤ ra.length + 1 ∧ rb'.length ≤ rb.length + 1 ∧ (c = none ∨ c' = c) := by
  have hP := S.prims
  have dr' := dr.deliver
  have hU : ∀ y ∈ Us, y ∈ fresh :: Us := fun y h => by simp [h]
  have dr0 : Draws L K Uh Us (draws as) := dr.skip
  have drM : Draws (L.back k) K Uh Us (draws (.deliver false x fresh :: as)) := dr.symm.kp k
  have hpriv : t.A.privs (keyHash P k) = some (initDHKey P k) := by rw [hA]; exact S.meetB.priv
  cases F with
  | zero h1 h2 =>
    exact ⟨_, [], [], Uh, Us, _, .noneA _ _ _ rfl, .zero h1 h2, dr0, by simp, by simp, by simp⟩
  | oneA h1 h2 h3 =>
    exact ⟨_, ra, [], Uh, Us, _, .noneA _ _ _ rfl, .oneA h1 h2 h3, dr0, by simp, by simp, by simp⟩
  | @oneB s' u B _ h1 h2 h3 =>
    simp only [act]
    cases hw0 : (rb.map Rec.wire)[x]? with
    | none =>
      exact ⟨_, [], rb, Uh, Us, _, .noneA _ _ _ (get_none Rec.e hw0), .oneB h1 h2 h3, dr0, by simp, by simp, by simp⟩
    | some w =>
      obtain ⟨m, hm, rfl⟩ := get_map hw0
      have hfm : (rb.map Rec.e)[x]? = some m.e := by rw [List.getElem?_map, hm]; rfl
      obtain ⟨A', G', v', ⟨⟨hvx, -⟩, -⟩, H⟩ := first_deliver hP S.okM S.okM' S.keysM' S.parse (ex := [])
        (fun ss h => by rw [S.meetB.stB] at h; cases h) (fun y hy _ x hx => S.meetB.sessB y hy x hx)
        S.meetB.priv S.privA (fun x hx _ ke p h => by rw [S.newA x hx] at h; cases h) h1.inv h1.cur h1.sn
        h1.opened h1.key (by simp) ⟨h1.pool.sess, h1.pool.nv, fun y hy => (nomatch hy), h1.pool.ev,
          fun y hy => absurd hy (by simp [view0])⟩
        (h3.later (w' := view0 A0.sessions [] false) (Later.refl _ _) (fun _ h => h) rfl seenOf_nil.symm)
        hrb drM hm
      simp only
      rcases H with ⟨e1, e2⟩ | ⟨e0, e1, e2⟩
      · rw [show openStep P L.flip fresh m.wire A0 = _ from e1]
        exact ⟨_, [], [] ++ rb, Uh, fresh :: Us, _, .openA _ _ _ m.e hfm (by exact List.not_mem_nil),
          .two (rs := []) (s' := fresh) (u := u) (o := []) (gS := []) e2.back
            (by rw [hvx]; simp) (.inl ⟨rfl, h1.ex, rfl⟩) (by simp), dr', by simp,
          by simp, by simp⟩
      · rw [show openStep P L.flip fresh m.wire A0 = _ from e1]
        exact ⟨_, [], [] ++ rb, Uh, fresh :: Us, _, .farA _ _ _ _ hfm (h3.far hm hrb e0),
          .two (rs := []) (s' := fresh) (u := u) (o := []) (gS := []) e2.back
            (by rw [hvx]; simp) (.inl ⟨rfl, h1.ex, rfl⟩) (by simp), dr', by simp,
          by simp, by simp⟩
  | @cross s v A _ s' u B _ o gotA h1 h2 h3 h4 h5 =>
    simp only [act]
    cases hw0 : (rb.map Rec.wire)[x]? with
    | none =>
      exact ⟨_, ra, rb, Uh, Us, _, .noneA _ _ _ (get_none Rec.e hw0), .cross h1 h2 h3 h4 h5, dr0, by simp, by simp, by simp⟩
    | some w =>
      obtain ⟨m, hm, rfl⟩ := get_map hw0
      have hfm : (rb.map Rec.e)[x]? = some m.e := by rw [List.getElem?_map, hm]; rfl
      obtain ⟨A', v', ⟨b, rfl⟩, e2, e3⟩ := h5.open hP S.b S.keysA S.parse S.order h1.inv hpriv hrb dr hm fresh
      have hF : First P L k K (fresh :: Us) [k] s { v with base := b } A' :=
        (First.more ⟨e2, h1.cur, h1.sn, h1.opened, h1.ex, h1.ki, h1.key, h1.kU, h1.away,
          ⟨h1.pool.sess, h1.pool.nv, h1.pool.nw, h1.pool.ev, h1.pool.ew⟩⟩ hU)
      have hD : Dir P L uidA Uh [firstSn P L s] { v with base := b } (seenOf []) ra [] :=
        h2.later ⟨fun _ _ h => h, fun _ => Nat.le_refl _, .inl ⟨rfl, fun _ h => h⟩⟩ (fun _ h => h) rfl rfl
      simp only
      rcases e3 with ⟨e0, e1, o', e4⟩ | ⟨e0, e1, e4⟩
      · rw [e1]
        exact ⟨_, ra, rb, Uh, fresh :: Us, _, .openA _ _ _ m.e hfm e0,
          .cross hF hD (h3.more hU) h4 (e4.more (fun _ h => h) hU), dr', by simp, by simp, by simp⟩
      · rw [e1]
        have hb := e4.more (fun _ h => h) hU
        rcases e0 with e0 | e0
        · exact ⟨_, ra, rb, Uh, fresh :: Us, _, .againA _ _ _ _ hfm e0, .cross hF hD (h3.more hU) h4 hb, dr',
            by simp, by simp, by simp⟩
        · exact ⟨_, ra, rb, Uh, fresh :: Us, _, .farA _ _ _ _ hfm (h5.dir.far hm hrb e0), .cross hF hD (h3.more hU) h4 hb, dr',
            by simp, by simp, by simp⟩
  | @two _ G v w A B _ rs rb gotB gotA gotM s' u o gS h1 hvk h2 h3 =>
    rw [List.length_append] at hrb
    simp only [act]
    cases hw0 : ((rs ++ rb).map Rec.wire)[x]? with
    | none =>
      exact ⟨_, ra, rs ++ rb, Uh, Us, _, .noneA _ _ _ (get_none Rec.e hw0), .two h1 hvk h2 h3, dr0, by simp, by simp, by simp⟩
    | some w0 =>
      obtain ⟨m, hm, rfl⟩ := get_map hw0
      have hfm : ((rs ++ rb).map Rec.e)[x]? = some m.e := by rw [List.getElem?_map, hm]; rfl
      simp only
      by_cases hx : x < rs.length
      · rw [List.getElem?_append_left hx] at hm
        rcases h2 with ⟨-, -, h2⟩ | ⟨hc, hcr⟩
        · subst h2; exact absurd hx (by simp)
        have h2 := hcr.back
        obtain ⟨A', v', ⟨b, rfl⟩, e2, e3⟩ := h2.open hP S.b S.keysA S.parse S.order h1.IA hpriv (by omega) dr hm
          fresh
        have hB := (h1.base e2).more (fun _ h => h) hU
        have hg0 : x ∈ gotA ↔ x ∈ gS := by
          rw [h3 x]
          constructor
          · rintro (⟨-, h⟩ | ⟨h, -⟩)
            · exact h
            · omega
          · exact fun h => .inl ⟨hx, h⟩
        rcases e3 with ⟨e0, e1, o', e4⟩ | ⟨e0, e1, e4⟩
        · rw [e1]
          refine ⟨_, ra, rs ++ rb, Uh, fresh :: Us, c, .openA _ _ _ m.e hfm (fun h => e0 (hg0.mp h)),
            .two hB hvk (.inr ⟨hc, hcr.ex, hcr.aside, e4.more (fun _ h => h) hU⟩) ?_, dr', by simp, by simp, by simp⟩
          intro z
          simp only [List.mem_cons]
          rw [h3 z]
          constructor
          · rintro (rfl | ⟨q1, q2⟩ | q)
            · exact .inl ⟨hx, .inl rfl⟩
            · exact .inl ⟨q1, .inr q2⟩
            · exact .inr q
          · rintro (⟨q1, q2 | q2⟩ | q)
            · exact .inl q2
            · exact .inr (.inl ⟨q1, q2⟩)
            · exact .inr (.inr q)
        · rw [e1]
          have hb := e4.more (fun _ h => h) hU
          rcases e0 with e0 | e0
          · exact ⟨_, ra, rs ++ rb, Uh, fresh :: Us, _, .againA _ _ _ _ hfm (hg0.mpr e0), .two hB hvk (.inr ⟨hc, hcr.ex, hcr.aside, hb⟩) h3, dr',
              by simp, by simp, by simp⟩
          · exact ⟨_, ra, rs ++ rb, Uh, fresh :: Us, _, .farA _ _ _ _ hfm (h2.dir.far hm (by omega) e0), .two hB hvk (.inr ⟨hc, hcr.ex, hcr.aside, hb⟩) h3, dr',
              by simp, by simp, by simp⟩
      · rw [List.getElem?_append_right (by omega)] at hm
        obtain ⟨A', G', v', ⟨w0, -, -, -, -, eb, ex⟩, H⟩ := h1.symm.deliver hP S.b S.a S.keysA S.parse (by omega)
          hra dr.symm hm
        have hb : (c = none ∧ w.ex = [] ∧ rs = []) ∨
            (c = some s' ∧ Crossed P L k uidB Uh (fresh :: Us) v' w s' u rs o gS) :=
          h2.imp id fun h => ⟨h.1, (h.2.more (fun _ h => h) hU).move eb ex rfl rfl⟩
        have hvk : ∀ x ∈ v'.ex, x = k := by rw [ex]; exact hvk
        have hg0 : x ∈ gotA ↔ x - rs.length ∈ gotM := by
          rw [h3 x]
          constructor
          · rintro (⟨h, -⟩ | ⟨-, h⟩)
            · omega
            · exact h
          · exact fun h => .inr ⟨by omega, h⟩
        rcases H with ⟨e0, e1, e2⟩ | ⟨e0, e1, e2⟩
        · rw [e1]
          refine ⟨_, ra, rs ++ rb, Uh, fresh :: Us, c, .openA _ _ _ m.e hfm (fun h => e0 (hg0.mp h)),
            .two e2.symm hvk hb ?_, dr', by simp, by simp, by simp⟩
          intro z
          simp only [List.mem_cons]
          rw [h3 z]
          constructor
          · rintro (rfl | q | ⟨q1, q2⟩)
            · exact .inr ⟨by omega, .inl rfl⟩
            · exact .inl q
            · exact .inr ⟨q1, .inr q2⟩
          · rintro (q | ⟨q1, q2 | q2⟩)
            · exact .inr (.inl q)
            · exact .inl (by omega)
            · exact .inr (.inr ⟨q1, q2⟩)
        · rw [e1]
          rcases e0 with e0 | e0
          · exact ⟨_, ra, rs ++ rb, Uh, fresh :: Us, _, .againA _ _ _ _ hfm (hg0.mpr e0), .two e2.symm hvk hb h3, dr',
              by simp, by simp, by simp⟩
          · exact ⟨_, ra, rs ++ rb, Uh, fresh :: Us, _, .farA _ _ _ _ hfm (h1.dB.far hm (by omega) e0),
              .two e2.symm hvk hb h3, dr', by simp, by simp, by simp⟩

theorem sendStep_privs (P : Prims) (L : Link) (r : Round) (st : MemStore) :
    (sendStep P L r st).2.privs = st.privs := by
  have := run_privs P (encrypt P (L.encArgs r) r.rnd) st
  unfold sendStep
  revert this
  split <;> (rename_i e; rw [e]; exact id)

theorem openStep_privs (P : Prims) (L : Link) (fresh : Bytes) (m : Str) (st : MemStore) :
    (openStep P L fresh m st).2.privs = st.privs := by
  unfold openStep
  split
  · rfl
  · split
    · rename_i pre rest _
      have := run_privs P (decrypt P ⟨[L.bob], pre, rest, L.nB, fresh⟩) st
      revert this
      split <;> (rename_i e; rw [e]; exact id)
    · rfl

theorem act_privs (P : Prims) (L : Link) (t : Talk) (a : Act) :
    (act P L t a).1.A.privs = t.A.privs ∧ (act P L t a).1.B.privs = t.B.privs := by
  cases a with
  | send fromA r =>
    cases fromA with
    | true =>
      simp only [act]
      split <;> (rename_i e; exact ⟨by have := sendStep_privs P L r t.A; rw [e] at this; exact this, rfl⟩)
    | false =>
      simp only [act]
      split <;> (rename_i e; exact ⟨rfl, by have := sendStep_privs P L.flip r t.B; rw [e] at this; exact this⟩)
  | deliver toB x fresh =>
    cases toB with
    | true =>
      simp only [act]
      split
      · exact ⟨rfl, rfl⟩
      · exact ⟨rfl, openStep_privs _ _ _ _ _⟩
    | false =>
      simp only [act]
      split
      · exact ⟨rfl, rfl⟩
      · exact ⟨openStep_privs _ _ _ _ _, rfl⟩

theorem Contact.step (S : Contact P L k uidA uidB K A0 B0) {Uh Us : List Bytes} {c : Option Bytes} {t : Talk} {f : Sheet}
    {ra rb : List Rec} (F : Cross P L k K uidA uidB A0 B0 Uh Us c t f ra rb) (a : Act) (as : List Act)
    (ha : a.OK P L uidA uidB) (hra : ra.length < 2 ^ 62) (hrb : rb.length < 2 ^ 62)
    (hA : t.A.privs = A0.privs) (hB : t.B.privs = B0.privs) (dr : Draws L K Uh Us (draws (a :: as))) :
    ∃ f' ra' rb' Uh' Us' c', Free P L f a (act P L t a).2 f' ∧
      Cross P L k K uidA uidB A0 B0 Uh' Us' c' (act P L t a).1 f' ra' rb' ∧
      Draws L K Uh' Us' (draws as) ∧ ra'.length ≤ ra.length + 1 ∧ rb'.length ≤ rb.length + 1 ∧ (c = none ∨ c' = c) := by
  cases a with
  | send fromA r =>
    cases fromA with
    | true => exact S.sendA F r as ha hra dr
    | false => exact S.sendB F r as ha hrb dr
  | deliver toB x fresh =>
    cases toB with
    | true => exact S.deliverB F x fresh as hra hrb hB dr
    | false => exact S.deliverA F x fresh as hra hrb hA dr

theorem Contact.steps (S : Contact P L k uidA uidB K A0 B0) : ∀ (as : List Act) {Uh Us : List Bytes} {c : Option Bytes}
    {t : Talk} {f : Sheet} {ra rb : List Rec}, Cross P L k K uidA uidB A0 B0 Uh Us c t f ra rb →
    (∀ a ∈ as, a.OK P L uidA uidB) → ra.length + as.length < 2 ^ 62 → rb.length + as.length < 2 ^ 62 →
    t.A.privs = A0.privs → t.B.privs = B0.privs →
    Draws L K Uh Us (draws as) → FreeRun P L f as (talk P L t as) := by
  intro as
  induction as with
  | nil => intros; exact .nil _
  | cons a as ih =>
    intro Uh Us c t f ra rb F ha hra hrb hA hB dr
    rw [List.length_cons] at hra hrb
    obtain ⟨f', ra', rb', Uh', Us', c', e1, e2, e3, e4, e5, -⟩ := S.step F a as (ha a (by simp)) (by omega)
      (by omega) hA hB dr
    obtain ⟨p1, p2⟩ := act_privs P L t a
    exact .cons e1 (ih e2 (fun a h => ha a (by simp [h])) (by omega) (by omega) (p1.trans hA) (p2.trans hB) e3)

end

/-- C148: two users who have never communicated, each of whom has the other's KeyInit, send each
other messages and open them, in any order, any number of times; either of them may make the first
contact, or both at the same time.  Every message can be sent, and opens with exactly what was sent,
once; an attempt to open one fails only if it was opened before or is too far from the beginning of
its session. -/
theorem C148_crossing_partial {P : Prims} {L : Link} {k : Bytes} {uidA uidB : UID} {A B : MemStore}
    (as : List Act) (S : Contact P L k uidA uidB (L.aPriv :: L.bPriv :: L.kPriv :: k :: draws as) A B)
    (hnd : (L.aPriv :: L.bPriv :: L.kPriv :: k :: draws as).Nodup)
    (hok : ∀ a ∈ as, a.OK P L uidA uidB) (hlen : as.length < 2 ^ 62) :
    FreeRun P L ⟨[], [], [], []⟩ as (talk P L ⟨A, B, [], []⟩ as) := by
  refine S.steps as (Uh := []) (Us := [L.kPriv, k]) (.zero (by simp) (by simp)) hok (by simpa using hlen)
    (by simpa using hlen) rfl rfl ?_
  simp only [List.nodup_cons, List.mem_cons, not_or] at hnd
  obtain ⟨⟨n1, n2, n3, n4⟩, ⟨n5, n6, n7⟩, ⟨n8, n9⟩, n10, n11⟩ := hnd
  refine ⟨fun x h => absurd h (by simp), ?_, ?_, n1, n11⟩
  · intro x hx
    simp only [List.mem_cons, List.not_mem_nil, or_false] at hx
    rcases hx with rfl | rfl
    · exact ⟨by simp, fun e => n2 e.symm, fun e => n5 e.symm, n9⟩
    · exact ⟨by simp, fun e => n3 e.symm, fun e => n6 e.symm, n10⟩
  · intro x hx
    exact ⟨by simp [hx], fun e => n4 (e ▸ hx), fun e => n7 (e ▸ hx)⟩

end Two
end Verif.Msg

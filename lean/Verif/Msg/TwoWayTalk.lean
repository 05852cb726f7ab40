import Verif.Msg.TwoWayJoint
/-
C145: a conversation in both directions.  Two users send each other messages in any order; every
message may be opened at any time, several times or never.
-/
set_option autoImplicit false
namespace Verif.Msg
open Prog
open Wire (Outer newOuter newPre readFirst)
namespace Two

/-! ### The program -/

/-- Encrypt a message (msg/encrypt.go:91-447): the text written, if it succeeds. -/
def sendStep (P : Prims) (L : Link) (r : Round) (st : MemStore) : Option Str × MemStore :=
  match (encrypt P (L.encArgs r) r.rnd).run (MemStore.handle P) st with
  | (.ok _, st') => (some (st'.out.drop st.out.length), st')
  | (_, st') => (none, st')

/-- The stores of the two users and the messages written in each direction. -/
structure Talk where
  A : MemStore
  B : MemStore
  toB : List Str
  toA : List Str

/-- One of the users sends a message, or message number `x` of those sent is given to Decrypt;
`fresh` is the key Decrypt may draw. -/
inductive Act where
  | send (fromA : Bool) (r : Round)
  | deliver (toB : Bool) (x : Nat) (fresh : Bytes)

inductive Out where
  | sent (message : Str)
  | failed | nothing | refused
  | got (content : Bytes) (sender sig : Str)

def Out.ofOpen : Option (Bytes × Str × Str) → Out
  | some (c, s, g) => .got c s g
  | none => .refused

/-- One action; the calls are those of msg/encrypt.go and msg/decrypt.go. -/
def act (P : Prims) (L : Link) (t : Talk) : Act → Talk × Out
  | .send true r =>
    match sendStep P L r t.A with
    | (some m, A') => ({ t with A := A', toB := t.toB ++ [m] }, .sent m)
    | (none, A') => ({ t with A := A' }, .failed)
  | .send false r =>
    match sendStep P L.flip r t.B with
    | (some m, B') => ({ t with B := B', toA := t.toA ++ [m] }, .sent m)
    | (none, B') => ({ t with B := B' }, .failed)
  | .deliver true x fresh =>
    match t.toB[x]? with
    | none => (t, .nothing)
    | some m => ({ t with B := (openStep P L fresh m t.B).2 }, .ofOpen (openStep P L fresh m t.B).1)
  | .deliver false x fresh =>
    match t.toA[x]? with
    | none => (t, .nothing)
    | some m => ({ t with A := (openStep P L.flip fresh m t.A).2 },
        .ofOpen (openStep P L.flip fresh m t.A).1)

def talk (P : Prims) (L : Link) : Talk → List Act → List Out
  | _, [] => []
  | t, a :: as => (act P L t a).2 :: talk P L (act P L t a).1 as

/-! ### The specification -/

/-- A message and the header it was sent with. -/
structure Sent where
  r : Round
  h : Header

/-- The written message has the header `h`; the header can be read with the recipient's identity key. -/
def Written (P : Prims) (L : Link) (r : Round) (h : Header) (w : Str) : Prop :=
  ∃ messageKey, w = P.b64 (messageBytes P r.rnd h (P.dhPub L.bPriv) messageKey r.sigKey r.content)

/-- How many of the messages belong to the session named in the header `h`. -/
def inSession (l : List Sent) (h : Header) : Nat :=
  l.countP fun e => e.h.senderSessionPub.hash == h.senderSessionPub.hash

/-- More than 301 keys are needed at a time for the message (keys are made in multiples of `n`): it is
too far from the beginning of its session. -/
def Sent.far (e : Sent) (n : Nat) : Prop := 301 < roundUp e.h.senderMessageCount.toNat n

/-- The messages sent each way, which of them were opened, and whether the second user has
received anything. -/
structure Ref where
  sentA : List Sent
  sentB : List Sent
  gotB : List Nat
  gotA : List Nat
  met : Bool

/-- What may happen.  A message is opened with exactly what was sent, once; it is refused if it was
opened before, or if it is too far from the beginning of its session.  Its number in the header is the
number of messages written earlier in the same session.  The second user cannot send before having
received something. -/
inductive Allowed (P : Prims) (L : Link) : Ref → Act → Out → Ref → Prop where
  | sendA (f r h w) : Written P L r h w → h.senderMessageCount.toNat = inSession f.sentA h →
      Allowed P L f (.send true r) (.sent w) { f with sentA := f.sentA ++ [⟨r, h⟩] }
  | sendB (f r h w) : f.met = true → Written P L.flip r h w →
      h.senderMessageCount.toNat = inSession f.sentB h →
      Allowed P L f (.send false r) (.sent w) { f with sentB := f.sentB ++ [⟨r, h⟩] }
  | early (f r) : f.met = false → Allowed P L f (.send false r) .failed f
  | noneB (f x k) : f.sentA[x]? = none → Allowed P L f (.deliver true x k) .nothing f
  | openB (f x k e) : f.sentA[x]? = some e → x ∉ f.gotB →
      Allowed P L f (.deliver true x k)
        (.got e.r.content L.alice.identity (sigOf P e.r.sigKey e.r.content))
        { f with gotB := x :: f.gotB, met := true }
  | againB (f x k e) : f.sentA[x]? = some e → x ∈ f.gotB →
      Allowed P L f (.deliver true x k) .refused { f with met := true }
  | farB (f x k e) : f.sentA[x]? = some e → e.far (effKeys L.nB).toNat →
      Allowed P L f (.deliver true x k) .refused { f with met := true }
  | noneA (f x k) : f.sentB[x]? = none → Allowed P L f (.deliver false x k) .nothing f
  | openA (f x k e) : f.sentB[x]? = some e → x ∉ f.gotA →
      Allowed P L f (.deliver false x k)
        (.got e.r.content L.bob.identity (sigOf P e.r.sigKey e.r.content))
        { f with gotA := x :: f.gotA }
  | againA (f x k e) : f.sentB[x]? = some e → x ∈ f.gotA → Allowed P L f (.deliver false x k) .refused f
  | farA (f x k e) : f.sentB[x]? = some e → e.far (effKeys L.nA).toNat →
      Allowed P L f (.deliver false x k) .refused f

/-- The outcomes of a list of actions are all as they should be. -/
inductive Agree (P : Prims) (L : Link) : Ref → List Act → List Out → Prop where
  | nil (f) : Agree P L f [] []
  | cons {f f' a o as os} : Allowed P L f a o f' → Agree P L f' as os → Agree P L f (a :: as) (o :: os)

/-- The keys drawn during a list of actions. -/
def draws : List Act → List Bytes
  | [] => []
  | .send _ r :: as => r.rnd.headerPriv :: r.rnd.sessPriv :: r.rnd.nextPriv :: draws as
  | .deliver _ _ fresh :: as => fresh :: draws as

/-! ### Proof -/

def Rec.e (m : Rec) : Sent := ⟨m.r, m.h⟩

theorem roundUp_mono {i x n : Nat} (h : i ≤ x) : roundUp i n ≤ roundUp x n := by
  unfold roundUp
  exact Nat.mul_le_mul_right _ (Nat.div_le_div_right (by omega))

/-- Both parties have sessions. -/
structure Both (P : Prims) (L : Link) (K : List Bytes) (uidA uidB : UID) (Uh Us : List Bytes)
    (G : List Sn) (v w : View) (A B : MemStore) (ra rb : List Rec) (gotB gotA : List Nat) : Prop where
  IA : PInv P L K G v A
  IB : PInv P L.flip K (G.map Sn.flip) w B
  rel : Rel G.length v w
  pool : Pool Us G v w
  dA : Dir P L uidA Uh G v w ra gotB
  dB : Dir P L.flip uidB Uh (G.map Sn.flip) w v rb gotA

theorem Both.symm {P : Prims} {L : Link} {K : List Bytes} {uidA uidB : UID} {Uh Us : List Bytes}
    {G : List Sn} {v w : View} {A B : MemStore} {ra rb : List Rec} {gotB gotA : List Nat}
    (H : Both P L K uidA uidB Uh Us G v w A B ra rb gotB gotA) :
    Both P L.flip K uidB uidA Uh Us (G.map Sn.flip) w v B A rb ra gotA gotB :=
  ⟨H.IB, by rw [map_flip_flip]; exact H.IA, by rw [List.length_map]; exact H.rel.symm, H.pool.symm, H.dB,
    by rw [map_flip_flip]; exact H.dA⟩

theorem Later.refl (G : List Sn) (v : View) : Later G v G v :=
  ⟨fun _ _ h => h, fun _ => Nat.le_refl _, .inl ⟨rfl, fun _ h => h⟩⟩

/-- More keys have been drawn. -/
theorem Both.more {P : Prims} {L : Link} {K : List Bytes} {uidA uidB : UID} {Uh Us Uh' Us' : List Bytes}
    {G : List Sn} {v w : View} {A B : MemStore} {ra rb : List Rec} {gotB gotA : List Nat}
    (H : Both P L K uidA uidB Uh Us G v w A B ra rb gotB gotA) (h1 : ∀ x ∈ Uh, x ∈ Uh')
    (h2 : ∀ x ∈ Us, x ∈ Us') : Both P L K uidA uidB Uh' Us' G v w A B ra rb gotB gotA :=
  ⟨H.IA, H.IB, H.rel, H.pool.more h2, H.dA.later (Later.refl _ _) h1 rfl rfl,
    H.dB.later (Later.refl _ _) h1 rfl rfl⟩

section
variable {P : Prims} (hP : P.Good)
include hP

/-- Sending, for one party. -/
theorem send_party {L : Link} {uid : UID} (hL : L.OK P uid) {K : List Bytes} (hK : Keys P L K)
    {Uh Us rest : List Bytes} {G : List Sn} {v w : View} {A : MemStore} {ra : List Rec} {got : List Nat}
    {r : Round} (hr : r.OK P uid ∧ Fits P L r) (IA : PInv P L K G v A) (pool : Pool Us G v w)
    (D : Dir P L uid Uh G v w ra got) (hlen : ra.length < 2 ^ 62)
    (dr : Draws L K Uh Us (r.rnd.headerPriv :: r.rnd.sessPriv :: r.rnd.nextPriv :: rest)) :
    ∃ A' m, sendStep P L r A = (some m.wire, A') ∧ (m.r = r ∧ m.j = v.cur ∧ m.nx = v.drawn r ∧
        m.sn = v.sn) ∧
      PInv P L K G { v with nx := v.drawn r, sent := fset v.sent v.cur (v.sent v.cur + 1) } A' ∧
      (∀ x, v.nx = some x → v.drawn r = some x) ∧
      (∀ y, v.drawn r = some y → y ∈ r.rnd.sessPriv :: r.rnd.nextPriv :: Us) ∧
      Dir P L uid (r.rnd.headerPriv :: Uh) G
        { v with nx := v.drawn r, sent := fset v.sent v.cur (v.sent v.cur + 1) } w (ra ++ [m]) got := by
  obtain ⟨ss, s, hs, -, -⟩ := IA.state
  have hn := dr.r r.rnd.nextPriv (by simp)
  obtain ⟨A', h, nym, e1, e2, e3, e4⟩ := enc_next hP hL hK hr.1 hr.2 IA hs
    (by have := D.sentle v.cur; omega) hn.1 (fun h => (dr.s _ (pool.ev _ h)).2.2.2 (by simp)) (by
      intro s hs e
      exact (dr.s _ (pool.sess s hs).1).2.2.2 (by simp [e]))
  have hdr : ∀ x, v.nx = some x → v.drawn r = some x := by
    intro x hx
    simp [View.drawn, hx]
  let m : Rec := ⟨r, v.cur, v.sent v.cur, v.drawn r, v.sn, h, wireOf P L r h s (v.sent v.cur)⟩
  refine ⟨A', m, ?_, ⟨rfl, rfl, rfl, rfl⟩, e4, hdr, ?_, ?_⟩
  · unfold sendStep
    rw [e1]
    simp only [e3, List.drop_left]
    rfl
  · intro y hy
    unfold View.drawn at hy
    split at hy
    · rw [← Option.some.inj hy]; simp
    · have := pool.nv y hy; simp [this]
  · refine D.send (m := m) rfl rfl hdr (fun x hx => by simp [hx]) ?_ rfl rfl hr
    refine ⟨⟨s, hs, e2, rfl⟩, Nat.le_refl _, ?_, ?_, ?_, by simp [m]⟩
    · simp [m]
    · intro x hx
      exact .inl ⟨rfl, hx⟩
    · intro y hy
      obtain ⟨s', k1, k2, k3, k4⟩ := IA.seen y hy
      exact ⟨s', k1, k2, k4, hdr _ k3⟩

theorem Both.send {L : Link} {uidA uidB : UID} (hL : L.OK P uidA) {K : List Bytes} (hK : Keys P L K)
    {Uh Us rest : List Bytes} {G : List Sn} {v w : View} {A B : MemStore} {ra rb : List Rec}
    {gotB gotA : List Nat} {r : Round} (hr : r.OK P uidA ∧ Fits P L r)
    (H : Both P L K uidA uidB Uh Us G v w A B ra rb gotB gotA) (hlen : ra.length < 2 ^ 62)
    (dr : Draws L K Uh Us (r.rnd.headerPriv :: r.rnd.sessPriv :: r.rnd.nextPriv :: rest)) :
    ∃ A' v' m, sendStep P L r A = (some m.wire, A') ∧ (m.r = r ∧ m.j = v.cur ∧ m.nx = v.drawn r ∧
        m.sn = v.sn ∧ v'.cur = v.cur ∧ v'.nx = v.drawn r ∧ v'.sn = v.sn ∧ v'.base = v.base ∧
        v'.ex = v.ex) ∧
      Both P L K uidA uidB (r.rnd.headerPriv :: Uh) (r.rnd.sessPriv :: r.rnd.nextPriv :: Us) G v' w A' B
        (ra ++ [m]) rb gotB gotA := by
  obtain ⟨A', m, e1, e2, e3, e4, e5, e6⟩ := send_party hP hL hK hr H.IA H.pool H.dA hlen dr
  refine ⟨A', { v with nx := v.drawn r, sent := fset v.sent v.cur (v.sent v.cur + 1) }, m, e1, ⟨e2.1, e2.2.1, e2.2.2.1, e2.2.2.2, rfl, rfl, rfl, rfl, rfl⟩, e3, H.IB, ?_, ?_, e6, ?_⟩
  · cases H.rel with
    | even h1 h2 h3 h4 => exact .even h1 h2 h3 h4
    | prepL h1 h2 h3 h4 h5 => exact .prepL h1 h2 h3 h4 h5
    | prepR h1 h2 h3 h4 h5 =>
      refine .prepR h1 h2 ?_ h4 h5
      obtain ⟨z, hz⟩ := Option.ne_none_iff_exists'.mp h2
      rw [hz]
      exact e4 z (by rw [h3]; exact hz)
    | aheadL h1 h2 h3 h4 => exact .aheadL h1 h2 h3 h4
    | aheadR h1 h2 h3 h4 => exact .aheadR h1 h2 h3 h4
  · exact ⟨fun s hs => by
      obtain ⟨g1, g2, g3⟩ := H.pool.sess s hs
      exact ⟨by simp [g1], by simp [g2], g3⟩, e5, fun y hy => by simp [H.pool.nw y hy],
      fun y hy => by simp [H.pool.ev y hy], fun y hy => by simp [H.pool.ew y hy]⟩
  · exact H.dB.later (Later.refl _ _) (fun x hx => by simp [hx]) rfl rfl

/-- A message reaches the second party. -/
theorem Both.deliver {L : Link} {uidA uidB : UID} (hL : L.OK P uidA) (hL' : L.flip.OK P uidB)
    {K : List Bytes} (hK : Keys P L.flip K)
    (hparse : ∀ h : Header, h.Clean → (P.marshal h).length = 7152 → P.parse (P.marshal h) = some h)
    {Uh Us rest : List Bytes} {G : List Sn} {v w : View} {A B : MemStore} {ra rb : List Rec}
    {gotB gotA : List Nat} {fresh : Bytes}
    (H : Both P L K uidA uidB Uh Us G v w A B ra rb gotB gotA) (hla : ra.length < 2 ^ 62)
    (hlb : rb.length < 2 ^ 62) (dr : Draws L K Uh Us (fresh :: rest)) {x : Nat} {m : Rec}
    (hm : ra[x]? = some m) :
    ∃ B' G' w', (∃ w0, recvStep P L.flip fresh m.nx m.sn m.j (G.map Sn.flip) w = (G'.map Sn.flip, w0) ∧
        w'.cur = w0.cur ∧ w'.nx = w0.nx ∧ w'.sn = w0.sn ∧ w'.base = w.base ∧ w'.ex = w.ex) ∧ ((x ∉ gotB ∧ openStep P L fresh m.wire B =
        (some (m.r.content, L.alice.identity, sigOf P m.r.sigKey m.r.content), B') ∧
        Both P L K uidA uidB Uh (fresh :: Us) G' v w' A B' ra rb (x :: gotB) gotA) ∨
      ((x ∈ gotB ∨ 301 < roundUp m.i (effKeys L.nB).toNat) ∧ openStep P L fresh m.wire B = (none, B') ∧
        Both P L K uidA uidB Uh (fresh :: Us) G' v w' A B' ra rb gotB gotA)) := by
  have hmem := List.mem_of_getElem? hm
  have ok := H.dA.ok m hmem
  obtain ⟨hr1, hr2⟩ := H.dA.rok m hmem
  obtain ⟨s, h, hs, Hd, hw⟩ := ok.hdr
  obtain ⟨q1, q2, q3, q4, q5, G', w', q6, q7, q8, q9, q10, q11, q12, q13, q14⟩ :=
    recv_joint hP H.IA H.rel H.IB.seen H.IB.cur H.pool dr ok
  obtain ⟨hb1, hb2⟩ := recvStep_base P L.flip fresh m.nx m.sn m.j (G.map Sn.flip) w
  rw [q6] at hb1 hb2
  have hq := get_flip hs
  have Hd' : Hdr P L s.flip.flip m.i m.nx m.sn h := by rw [Sn.flip_flip]; exact Hd
  obtain ⟨sb, B1, d1, d2, d3⟩ := dec_session hP hL hL' hK H.IB q1 hq Hd'
    ⟨[L.bob], (newPre (P.dhPub m.r.rnd.headerPriv)).write,
        (newOuter Wire.encryptedHeader 1 (m.r.rnd.nonce ++ be16 7168 ++
          P.boxSeal (P.marshal h) m.r.rnd.nonce (P.dhPub L.bPriv) m.r.rnd.headerPriv)).write true ++
          encBody P (senderKey P s.flip.root (P.dhPub s.flip.a) (L.fix P) m.i) m.r.rnd m.r.sigKey
            m.r.content, L.nB, fresh⟩ (hp := m.r.rnd.headerPriv) (dr.h _ ok.head).1 q2 q3 q4 q5
  rw [show (recvStep P L.flip fresh m.nx m.sn m.j (G.map Sn.flip) w) = _ from q6] at d3
  have hix := H.dA.idx x m hm
  have hxl := (List.getElem?_eq_some_iff.mp hm).1
  have hcnt := ok.cnt
  obtain ⟨B', hB⟩ := dec_finish hP hL hr1 hr2.content hK d3 q13 (q9.sub _ _ hq) (by omega)
    (by rw [q11]; have := H.dB.sentle m.j; omega) Hd' (hparse h Hd.clean Hd.len) d2 fresh d1
  rw [Sn.flip_flip, ← hw, q12] at hB
  have hop := H.dA.opened x m hm
  have hdA : Dir P L uidA Uh G' v w' ra gotB :=
    H.dA.later ⟨q10, fun _ => Nat.le_refl _, .inl ⟨rfl, fun _ h => h⟩⟩ (fun _ h => h) rfl q12
  have hdB := H.dB.later (w' := v) q9 (fun _ h => h) q11 rfl
  rcases hB with ⟨g1, g2, g3⟩ | ⟨g1, g2, g3⟩
  · refine ⟨B', G', { w' with opened := fset w.opened m.j (m.i :: w.opened m.j) },
      ⟨w', q6, rfl, rfl, rfl, hb1, hb2⟩, .inl ⟨fun h => g1 (hop.mpr h), g2, q7, g3, ?_, ?_, ?_, ?_⟩⟩
    · cases q8 with
      | even h1 h2 h3 h4 => exact .even h1 h2 h3 h4
      | prepL h1 h2 h3 h4 h5 => exact .prepL h1 h2 h3 h4 h5
      | prepR h1 h2 h3 h4 h5 => exact .prepR h1 h2 h3 h4 h5
      | aheadL h1 h2 h3 h4 => exact .aheadL h1 h2 h3 h4
      | aheadR h1 h2 h3 h4 => exact .aheadR h1 h2 h3 h4
    · exact ⟨q14.sess, q14.nv, q14.nw, q14.ev, q14.ew⟩
    · exact hdA.open hm (by simp only [q12])
    · exact hdB.later ⟨fun _ _ h => h, fun _ => Nat.le_refl _, .inl ⟨rfl, fun _ h => h⟩⟩
        (fun _ h => h) rfl rfl
  · refine ⟨B', G', w', ⟨w', q6, rfl, rfl, rfl, hb1, hb2⟩, .inr ⟨?_, g2, q7, g3, q8, q14, hdA, hdB⟩⟩
    rcases g1 with g1 | g1
    · exact .inl (hop.mp g1)
    · exact .inr g1

/-- Without a session and without the KeyInit of the other user nothing is sent. -/
theorem send_early {L : Link} {uid : UID} (hL : L.OK P uid) {r : Round} {st : MemStore}
    (h1 : st.states (L.stateKeyA P) = none) (h2 : st.pubs L.bob.identity = none) :
    sendStep P L r st = (none, st) := by
  have e1 : (L.encArgs r).from.pubKey.pub32 P = some (P.dhPub L.aPriv) := by
    rw [show (L.encArgs r).from.pubKey = initDHKey P L.aPriv from hL.a]
    exact initDHKey_pub32 P hP _
  have e2 : (L.encArgs r).to.pubKey.pub32 P = some (P.dhPub L.bPriv) := by
    rw [show (L.encArgs r).to.pubKey = (initDHKey P L.bPriv).public by simp only [Link.encArgs, hL.b]]
    exact initDHKey_public_pub32 P hP _
  have h3 : (encSession P (L.encArgs r) r.rnd (effKeys L.nA) (L.stateKeyA P)).run
        (MemStore.handle P) st = (.err (.store .noKeyEntry), st) := by
    unfold encSession
    simp only [bind_eq]
    rw [if_pos (by show statusOK ≠ _; decide)]
    rw [run_bind_of_ok (a := none) (s1 := st) _ (by
      rw [run_ask_ok]; simp only [MemStore.handle, h1])]
    simp only
    rw [run_bind, run_ask]
    simp only [MemStore.handle, MemStore.getPublicKeyEntry, Link.encArgs, h2]
  unfold sendStep encrypt
  simp only [bind_eq, e1, e2, orPanic, ret_bind]
  rw [show calcStateKey P (P.dhPub L.aPriv) (P.dhPub L.bPriv) = L.stateKeyA P from rfl,
    show (if (L.encArgs r).numOfKeys = 0 then numOfFutureKeys else (L.encArgs r).numOfKeys) =
      effKeys L.nA from rfl]
  rw [run_bind, h3]

/-- The first message reaches the second party. -/
theorem first_deliver {L : Link} {uidA uidB : UID} (hL : L.OK P uidA) (hL' : L.flip.OK P uidB)
    {K : List Bytes} (hK : Keys P L.flip K)
    (hparse : ∀ h : Header, h.Clean → (P.marshal h).length = 7152 → P.parse (P.marshal h) = some h)
    {B : MemStore} {ex : List Bytes}
    (hst : ∀ ss, B.states (L.stateKeyB P) = some ss →
      ss.keyInitSession = true ∧ L.alice.identity < L.bob.identity)
    (hse : ∀ y ∈ K, y ∉ ex → ∀ x ∈ K, B.sessions (L.flip.skey P y x) = none)
    (hpriv : B.privs (keyHash P L.kPriv) = some (initDHKey P L.kPriv))
    (hpr : ∀ x ∈ K, ∀ ke, B.privs (keyHash P x) = some ke → ke = initDHKey P x)
    (hskB : ∀ x ∈ K, x ∉ ex → ∀ ke p, B.skeys (keyHash P x) = some (ke, p) → p = [])
    {Uh Us rest : List Bytes} {s : Bytes} {v : View} {A : MemStore} {ra : List Rec} {fresh : Bytes}
    (IA : PInv P L K [firstSn P L s] v A) (hc : v.cur = 0) (hsn : v.sn = none)
    (ho : v.opened = fun _ => []) (hk : L.kPriv ∈ Us) (hke : L.kPriv ∉ ex)
    (pool : Pool Us [firstSn P L s] v (view0 B.sessions ex false))
    (D : Dir P L uidA Uh [firstSn P L s] v (view0 B.sessions ex false) ra []) (hla : ra.length < 2 ^ 62)
    (dr : Draws L K Uh Us (fresh :: rest)) {x : Nat} {m : Rec} (hm : ra[x]? = some m) :
    ∃ B' G' w', ((w'.ex = ex ∧ w'.base = B.sessions) ∧
        (m.nx = none → G' = [firstSn P L s] ∧ w'.cur = 0 ∧ w'.nx = some fresh ∧ w'.sn = none)) ∧
      ((openStep P L fresh m.wire B =
        (some (m.r.content, L.alice.identity, sigOf P m.r.sigKey m.r.content), B') ∧
        Both P L K uidA uidB Uh (fresh :: Us) G' v w' A B' ra [] [x] []) ∨
      (301 < roundUp m.i (effKeys L.nB).toNat ∧ openStep P L fresh m.wire B = (none, B') ∧
        Both P L K uidA uidB Uh (fresh :: Us) G' v w' A B' ra [] [] [])) := by
  have hmem := List.mem_of_getElem? hm
  have ok := D.ok m hmem
  obtain ⟨hr1, hr2⟩ := D.rok m hmem
  obtain ⟨s0, h, hs, Hd, hw⟩ := ok.hdr
  have hj : m.j = 0 := by have := ok.cur; omega
  rw [hj] at hs
  obtain rfl : firstSn P L s = s0 := Option.some.inj hs
  have hfr := dr.r fresh (by simp)
  have hfs : fresh ∉ Us := fun h => (dr.s _ h).2.2.2 (by simp)
  have hh := dr.h _ ok.head
  obtain ⟨hsU, -, hsk⟩ := pool.sess (firstSn P L s) (by simp)
  have hsU : s ∈ Us := hsU
  have hsk : s ≠ L.kPriv := hsk
  have hks := dr.s _ hk
  have hss := dr.s _ hsU
  have rel0 : Rel [firstSn P L s].length v (view0 B.sessions ex false) := .even hc hsn rfl (by rw [hc]; rfl)
  obtain ⟨-, q2, -, q4, -, Gq, wq, q6, q7, q8, q9, q10, q11, q12, q13, q14⟩ :=
    recv_joint hP IA rel0 (fun x hx => nomatch hx) rfl pool dr ok
  obtain ⟨sb, B1, d1, d2, d3⟩ := dec_first hP hL hL' hK hst hse hpriv hpr hskB Hd
    ⟨[L.bob], (newPre (P.dhPub m.r.rnd.headerPriv)).write,
        (newOuter Wire.encryptedHeader 1 (m.r.rnd.nonce ++ be16 7168 ++
          P.boxSeal (P.marshal h) m.r.rnd.nonce (P.dhPub L.bPriv) m.r.rnd.headerPriv)).write true ++
          encBody P (senderKey P (firstSn P L s).flip.root (P.dhPub (firstSn P L s).flip.a) (L.fix P) m.i)
            m.r.rnd m.r.sigKey m.r.content, L.nB, fresh⟩ (hp := m.r.rnd.headerPriv) hh.1 hks.1 hke hss.1
    hfr.1 (fun h => hfs (pool.ew _ h)) (fun e => hfs (by
      have e : L.kPriv = fresh := e
      rw [← e]; exact hk))
    (fun y hy => ⟨q2 y hy, (q4 y hj hy rfl).2.2.2.2⟩) (by
      have h1 : m.r.rnd.headerPriv ≠ s := fun e => hh.2.2.2.1 (e ▸ hsU)
      have h2 : m.r.rnd.headerPriv ≠ L.kPriv := fun e => hh.2.2.2.1 (e ▸ hk)
      simp only [List.nodup_cons, List.mem_cons, List.not_mem_nil, or_false, not_or,
        not_false_eq_true, List.nodup_nil, and_true]
      exact ⟨⟨hh.2.1, h1, hh.2.2.1, h2⟩, ⟨fun e => hss.2.1 e.symm, dr.ab, fun e => hks.2.1 e.symm⟩,
        ⟨hss.2.2.1, hsk⟩, fun e => hks.2.2.1 e.symm⟩)
  have hjoint : ∃ G' w', startStep P L.flip B.sessions ex (firstSn P L s).flip fresh m.nx = (G'.map Sn.flip, w') ∧
      PInv P L K G' v A ∧ Rel G'.length v w' ∧
      (∀ (j : Nat) (s' : Sn), [firstSn P L s][j]? = some s' → G'[j]? = some s') ∧
      w'.sent = (fun _ => 0) ∧ w'.opened = (fun _ => []) ∧ 0 < w'.known ∧ Pool (fresh :: Us) G' v w' ∧
      (w'.ex = ex ∧ w'.base = B.sessions) ∧
      (m.nx = none → G' = [firstSn P L s] ∧ w'.cur = 0 ∧ w'.nx = some fresh ∧ w'.sn = none) := by
    cases hnx : m.nx with
    | none =>
      refine ⟨[firstSn P L s], _, rfl, IA, .even hc hsn rfl (by rw [hc]; rfl), fun _ _ h => h, rfl, rfl,
        Nat.zero_lt_one, ?_, ⟨rfl, rfl⟩, fun _ => ⟨rfl, rfl, rfl, rfl⟩⟩
      have pm := pool.more (Us' := fresh :: Us) (fun x hx => by simp [hx])
      refine ⟨pm.sess, pm.nv, ?_, pm.ev, pm.ew⟩
      intro y hy
      simp only [Option.some.injEq] at hy
      simp [← hy]
    | some y =>
      refine ⟨Gq, wq, ?_, q7, q8, q10, q11, q12, by omega, q14, ?_, fun h => nomatch h⟩
      · rw [← q6, hnx, hj]; rfl
      · have hb := (recvStep_base P L.flip fresh m.nx m.sn m.j ([firstSn P L s].map Sn.flip)
          (view0 B.sessions ex false))
        rw [q6] at hb
        exact ⟨hb.2, hb.1⟩
  obtain ⟨G', w', j1, j2, j3, j4, j5, j6, j7, j8, j9⟩ := hjoint
  rw [show startStep P L.flip B.sessions ex (firstSn P L s).flip fresh m.nx = _ from j1] at d3
  have hq : (G'.map Sn.flip)[0]? = some (firstSn P L s).flip := get_flip (j4 0 _ rfl)
  have hix := D.idx x m hm
  have hxl := (List.getElem?_eq_some_iff.mp hm).1
  have Hd' : Hdr P L (firstSn P L s).flip.flip m.i m.nx m.sn h := by rw [Sn.flip_flip]; exact Hd
  obtain ⟨B', hB⟩ := dec_finish hP hL hr1 hr2.content hK d3 j7 hq (by omega)
    (by rw [j5]; show 0 < 2 ^ 62; omega) Hd' (hparse h Hd.clean Hd.len) d2 fresh d1
  rw [Sn.flip_flip, ← hw, j6] at hB
  have hdA : Dir P L uidA Uh G' v w' ra [] :=
    D.later ⟨j4, fun _ => Nat.le_refl _, .inl ⟨rfl, fun _ h => h⟩⟩ (fun _ h => h) rfl j6
  have hdB : ∀ w'' : View, w''.sent = w'.sent → Dir P L.flip uidB Uh (G'.map Sn.flip) w'' v [] [] := by
    intro w'' hw
    refine ⟨fun m h => absurd h (by simp), fun m h => absurd h (by simp), fun x m h => absurd h (by simp),
      ?_, fun x x' m m' h => absurd h (by simp), fun x m h => absurd h (by simp), ?_, fun x h => absurd h (by simp)⟩
    · intro j
      rw [hw, j5]; rfl
    · intro j i hi
      rw [ho] at hi; exact absurd hi (by simp)
  rcases hB with ⟨g1, g2, g3⟩ | ⟨g1, g2, g3⟩
  · refine ⟨B', G', { w' with opened := fset (fun _ => []) 0 [m.i] }, j9, .inl ⟨g2, j2, g3, ?_, ⟨j8.sess, j8.nv, j8.nw, j8.ev, j8.ew⟩, ?_, hdB _ rfl⟩⟩
    · cases j3 with
      | even h1 h2 h3 h4 => exact .even h1 h2 h3 h4
      | prepL h1 h2 h3 h4 h5 => exact .prepL h1 h2 h3 h4 h5
      | prepR h1 h2 h3 h4 h5 => exact .prepR h1 h2 h3 h4 h5
      | aheadL h1 h2 h3 h4 => exact .aheadL h1 h2 h3 h4
      | aheadR h1 h2 h3 h4 => exact .aheadR h1 h2 h3 h4
    · exact hdA.open hm (by simp only [j6, hj])
  · refine ⟨B', G', w', j9, .inr ⟨?_, g2, j2, g3, j3, j8, hdA, hdB _ rfl⟩⟩
    rcases g1 with g1 | g1
    · exact absurd g1 (by simp [view0])
    · exact g1

/-- The first message is sent. -/
theorem first_send {L : Link} {uid : UID} (hL : L.OK P uid) {K : List Bytes} (hK : Keys P L K)
    {A : MemStore} {ex : List Bytes} (hst : A.states (L.stateKeyA P) = none)
    (hse : ∀ y ∈ K, y ∉ ex → ∀ x ∈ K, A.sessions (L.skey P y x) = none)
    (hpub : A.pubs L.bob.identity = some (initDHKey P L.kPriv).public)
    (hpr : ∀ x ∈ K, ∀ ke, A.privs (keyHash P x) = some ke → ke = initDHKey P x)
    (hsk : ∀ x ∈ K, x ∉ ex → ∀ ke p, A.skeys (keyHash P x) = some (ke, p) → p = [])
    (w : View) (hw : w.nx = none ∧ w.opened = fun _ => [])
    {Uh Us rest : List Bytes} {r : Round} (hr : r.OK P uid ∧ Fits P L r) (hk : L.kPriv ∈ Us)
    (hexU : ∀ x ∈ ex, x ∈ Us) (hwU : ∀ x ∈ w.ex, x ∈ Us)
    (dr : Draws L K Uh Us (r.rnd.headerPriv :: r.rnd.sessPriv :: r.rnd.nextPriv :: rest)) :
    ∃ A' v m, sendStep P L r A = (some m.wire, A') ∧ (m.r = r ∧ m.nx = none ∧ m.sn = none ∧ v.nx = none) ∧
      PInv P L K [firstSn P L r.rnd.sessPriv] v A' ∧ v.cur = 0 ∧ v.sn = none ∧ v.opened = (fun _ => []) ∧
      (v.base = A.sessions ∧ v.ex = ex ∧ v.ki = true) ∧
      Pool (r.rnd.sessPriv :: r.rnd.nextPriv :: Us) [firstSn P L r.rnd.sessPriv] v w ∧
      Dir P L uid (r.rnd.headerPriv :: Uh) [firstSn P L r.rnd.sessPriv] v w [m] [] := by
  have hks := dr.s _ hk
  have nd := dr.nd
  simp only [List.nodup_cons, List.mem_cons, not_or] at nd hks
  have hhd := dr.r r.rnd.headerPriv (by simp)
  have hsp := dr.r r.rnd.sessPriv (by simp)
  have hd := hK.diff [r.rnd.headerPriv, L.aPriv, r.rnd.sessPriv, L.bPriv, L.kPriv] (by
    intro z hz
    simp only [List.mem_cons, List.not_mem_nil, or_false] at hz
    rcases hz with rfl | rfl | rfl | rfl | rfl
    · exact hhd.1
    · exact hK.a
    · exact hsp.1
    · exact hK.b
    · exact hks.1) (by
      simp only [List.nodup_cons, List.mem_cons, List.not_mem_nil, or_false, not_or,
        not_false_eq_true, List.nodup_nil, and_true]
      exact ⟨⟨hhd.2.1, nd.1.1, hhd.2.2, fun e => hks.2.2.2.1 e.symm⟩,
        ⟨fun e => hsp.2.1 e.symm, dr.ab, fun e => hks.2.1 e.symm⟩,
        ⟨hsp.2.2, fun e => hks.2.2.2.2.1 e.symm⟩, fun e => hks.2.2.1 e.symm⟩)
  obtain ⟨A', h, nym, e1, e2, e3, e4⟩ := enc_first hP hL hK hr.1 hr.2 hst hse hpub hpr hsk hks.1
    hsp.1 (fun h => (dr.s _ (hexU _ h)).2.2.2 (by simp)) hd
  let m : Rec := ⟨r, 0, 0, none, none, h, wireOf P L r h (firstSn P L r.rnd.sessPriv) 0⟩
  have D0 : Dir P L uid Uh [firstSn P L r.rnd.sessPriv] (view0 A.sessions ex true) w [] [] :=
    ⟨fun m h => absurd h (by simp), fun m h => absurd h (by simp), fun x m h => absurd h (by simp),
      fun _ => rfl, fun x x' m m' h => absurd h (by simp), fun x m h => absurd h (by simp),
      fun j i h => absurd h (by simp [hw.2]), fun x h => absurd h (by simp)⟩
  refine ⟨A', _, m, ?_, ⟨rfl, rfl, rfl, rfl⟩, e4, rfl, rfl, rfl, ⟨rfl, rfl, rfl⟩, ?_, ?_⟩
  · unfold sendStep
    rw [e1]
    simp only [e3, List.drop_left]
    rfl
  · refine ⟨?_, fun y hy => (nomatch hy), fun y hy => (by rw [hw.1] at hy; cases hy),
      fun y hy => by simp [hexU y hy], fun y hy => by simp [hwU y hy]⟩
    intro s hs
    rw [List.mem_singleton] at hs; subst hs
    exact ⟨by simp [firstSn], by simp [firstSn, hk], fun e => hks.2.2.2.2.1 (by
      have e : r.rnd.sessPriv = L.kPriv := e
      exact e.symm)⟩
  · refine D0.send (m := m) rfl rfl (fun x hx => nomatch hx) (fun x hx => by simp [hx]) ?_ rfl rfl hr
    exact ⟨⟨_, rfl, e2, rfl⟩, Nat.le_refl _, by simp [m], fun x hx => (nomatch hx),
      fun x hx => (nomatch hx), by simp [m]⟩

end

/-- The number in the header. -/
theorem Dir.pos {P : Prims} {L : Link} {uid : UID} {Uh : List Bytes} {G : List Sn} {v w : View}
    {recs : List Rec} {got : List Nat} (D : Dir P L uid Uh G v w recs got) {x : Nat} {m : Rec}
    (hm : recs[x]? = some m) (hlen : recs.length < 2 ^ 63) : m.h.senderMessageCount.toNat = m.i := by
  obtain ⟨s, -, H, -⟩ := (D.ok m (List.mem_of_getElem? hm)).hd
  have := D.idx x m hm
  have := (List.getElem?_eq_some_iff.mp hm).1
  rw [H.count, UInt64.toNat_ofNat', Nat.mod_eq_of_lt (by omega)]

theorem Dir.far {P : Prims} {L : Link} {uid : UID} {Uh : List Bytes} {G : List Sn} {v w : View}
    {recs : List Rec} {got : List Nat} (D : Dir P L uid Uh G v w recs got) {x : Nat} {m : Rec}
    (hm : recs[x]? = some m) (hlen : recs.length < 2 ^ 62) {n : Nat} (h : 301 < roundUp m.i n) :
    m.e.far n := by
  show 301 < roundUp m.h.senderMessageCount.toNat n
  rw [D.pos hm (by omega)]; exact h

/-- The last message, as written. -/
theorem Dir.note {P : Prims} {L : Link} {uid : UID} {K Uh : List Bytes} {G : List Sn} {v w : View}
    {A : MemStore} {ra : List Rec} {m : Rec} {got : List Nat} (D : Dir P L uid Uh G v w (ra ++ [m]) got)
    (hK : Keys P L K) (I : PInv P L K G v A) (hlen : ra.length < 2 ^ 62) :
    Written P L m.r m.h m.wire ∧ m.h.senderMessageCount.toNat = inSession (ra.map Rec.e) m.h := by
  have hm : (ra ++ [m])[ra.length]? = some m := by simp
  obtain ⟨s, hs, H, hw⟩ := (D.ok m (by simp)).hd
  refine ⟨⟨_, hw⟩, ?_⟩
  rw [D.pos hm (by simp only [List.length_append, List.length_singleton]; omega), D.num _ _ hm, List.take_left]
  unfold inSession
  rw [List.countP_map]
  refine List.countP_congr fun m' hm' => ?_
  obtain ⟨s', hs', H', -⟩ := (D.ok m' (by simp [hm'])).hd
  have h1 : m.h.senderSessionPub.hash = keyHash P s.a := by rw [H.sess]; rfl
  have h2 : m'.h.senderSessionPub.hash = keyHash P s'.a := by rw [H'.sess]; rfl
  simp only [Function.comp, Rec.e, beq_iff_eq, h1, h2]
  constructor
  · intro e
    rw [e, hs] at hs'
    rw [Option.some.inj hs']
  · intro e
    exact I.dist _ _ _ _ hs' hs (hK.inj _ (I.mem _ (List.mem_of_getElem? hs')).1 _
      (I.mem _ (List.mem_of_getElem? hs)).1 e)

/-- Where the conversation stands. -/
inductive Phase (P : Prims) (L : Link) (K : List Bytes) (uidA uidB : UID) (A0 B0 : MemStore)
    (Uh Us : List Bytes) : Talk → Ref → List Rec → List Rec → Prop where
  | zero : L.kPriv ∈ Us → Phase P L K uidA uidB A0 B0 Uh Us ⟨A0, B0, [], []⟩ ⟨[], [], [], [], false⟩ [] []
  | one {s v A ra} : PInv P L K [firstSn P L s] v A → v.cur = 0 → v.sn = none →
      v.opened = (fun _ => []) → L.kPriv ∈ Us → Pool Us [firstSn P L s] v (view0 B0.sessions [] false) →
      Dir P L uidA Uh [firstSn P L s] v (view0 B0.sessions [] false) ra [] → v.ex = [] →
      Phase P L K uidA uidB A0 B0 Uh Us ⟨A, B0, ra.map Rec.wire, []⟩ ⟨ra.map Rec.e, [], [], [], false⟩ ra []
  | two {G v w A B ra rb gotB gotA} : Both P L K uidA uidB Uh Us G v w A B ra rb gotB gotA →
      v.ex = [] → w.ex = [] → Phase P L K uidA uidB A0 B0 Uh Us ⟨A, B, ra.map Rec.wire, rb.map Rec.wire⟩
        ⟨ra.map Rec.e, rb.map Rec.e, gotB, gotA, true⟩ ra rb

/-- What is assumed of an action: Encrypt's requirements on its arguments. -/
def Act.OK (P : Prims) (L : Link) (uidA uidB : UID) : Act → Prop
  | .send true r => r.OK P uidA ∧ Fits P L r
  | .send false r => r.OK P uidB ∧ Fits P L.flip r
  | .deliver _ _ _ => True

/-- The two users have never communicated with each other: there is no session state, and no session
with the keys of the conversation (`K`); there may be sessions with other users.  The first user has
the public key of the second user's KeyInit message, the second user the private one. -/
structure _root_.Verif.Msg.Link.Meet (P : Prims) (L : Link) (K : List Bytes) (A B : MemStore) : Prop where
  stA : A.states (L.stateKeyA P) = none
  stB : B.states (L.stateKeyB P) = none
  sessA : ∀ y ∈ K, ∀ x ∈ K, A.sessions (L.skey P y x) = none
  sessB : ∀ y ∈ K, ∀ x ∈ K, B.sessions (L.flip.skey P y x) = none
  pub : A.pubs L.bob.identity = some (initDHKey P L.kPriv).public
  priv : B.privs (keyHash P L.kPriv) = some (initDHKey P L.kPriv)

theorem _root_.Verif.Msg.Link.Start.meet {P : Prims} {L : Link} {A B : MemStore} (S : L.Start P A B)
    (K : List Bytes) : L.Meet P K A B :=
  ⟨S.stA, S.stB, fun _ _ _ _ => S.sessA _, fun _ _ _ _ => S.sessB _, S.pub, S.priv⟩

/-- The setting of a conversation: the primitives and JSON coding work, the users have their keys,
have never communicated, the second user knows nothing of the first, and the keys drawn are not
already stored as session keys. -/
structure Setting (P : Prims) (L : Link) (uidA uidB : UID) (K : List Bytes) (A B : MemStore) : Prop where
  prims : P.Good
  a : L.OK P uidA
  b : L.flip.OK P uidB
  keysA : Keys P L K
  keysB : Keys P L.flip K
  parse : ∀ h : Header, h.Clean → (P.marshal h).length = 7152 → P.parse (P.marshal h) = some h
  start : L.Meet P K A B
  noPub : B.pubs L.alice.identity = none
  privA : ∀ x ∈ K, ∀ ke, A.privs (keyHash P x) = some ke → ke = initDHKey P x
  privB : ∀ x ∈ K, ∀ ke, B.privs (keyHash P x) = some ke → ke = initDHKey P x
  newA : ∀ x ∈ K, A.skeys (keyHash P x) = none
  newB : ∀ x ∈ K, B.skeys (keyHash P x) = none

theorem Setting.firstSend {P : Prims} {L : Link} {uidA uidB : UID} {K : List Bytes} {A B : MemStore}
    (S : Setting P L uidA uidB K A B) {Uh Us rest : List Bytes} {r : Round} (hr : r.OK P uidA ∧ Fits P L r)
    (hk : L.kPriv ∈ Us)
    (dr : Draws L K Uh Us (r.rnd.headerPriv :: r.rnd.sessPriv :: r.rnd.nextPriv :: rest)) :
    ∃ A' v m, sendStep P L r A = (some m.wire, A') ∧ (m.r = r ∧ m.nx = none ∧ m.sn = none ∧ v.nx = none) ∧
      PInv P L K [firstSn P L r.rnd.sessPriv] v A' ∧ v.cur = 0 ∧ v.sn = none ∧ v.opened = (fun _ => []) ∧
      (v.base = A.sessions ∧ v.ex = [] ∧ v.ki = true) ∧
      Pool (r.rnd.sessPriv :: r.rnd.nextPriv :: Us) [firstSn P L r.rnd.sessPriv] v
        (view0 B.sessions [] false) ∧
      Dir P L uidA (r.rnd.headerPriv :: Uh) [firstSn P L r.rnd.sessPriv] v (view0 B.sessions [] false)
        [m] [] :=
  first_send S.prims S.a S.keysA (ex := []) S.start.stA (fun y hy _ x hx => S.start.sessA y hy x hx)
    S.start.pub S.privA (fun x hx _ ke p h => by rw [S.newA x hx] at h; cases h) _ ⟨rfl, rfl⟩ hr hk
    (fun x hx => absurd hx (by simp)) (fun x hx => absurd hx (by simp [view0])) dr

theorem Setting.firstDeliver {P : Prims} {L : Link} {uidA uidB : UID} {K : List Bytes} {A0 B : MemStore}
    (S : Setting P L uidA uidB K A0 B)
    {Uh Us rest : List Bytes} {s : Bytes} {v : View} {A : MemStore} {ra : List Rec} {fresh : Bytes}
    (IA : PInv P L K [firstSn P L s] v A) (hc : v.cur = 0) (hsn : v.sn = none)
    (ho : v.opened = fun _ => []) (hk : L.kPriv ∈ Us)
    (pool : Pool Us [firstSn P L s] v (view0 B.sessions [] false))
    (D : Dir P L uidA Uh [firstSn P L s] v (view0 B.sessions [] false) ra []) (hla : ra.length < 2 ^ 62)
    (dr : Draws L K Uh Us (fresh :: rest)) {x : Nat} {m : Rec} (hm : ra[x]? = some m) :
    ∃ B' G' w', (w'.ex = [] ∧
        (m.nx = none → G' = [firstSn P L s] ∧ w'.cur = 0 ∧ w'.nx = some fresh ∧ w'.sn = none)) ∧
      ((openStep P L fresh m.wire B =
        (some (m.r.content, L.alice.identity, sigOf P m.r.sigKey m.r.content), B') ∧
        Both P L K uidA uidB Uh (fresh :: Us) G' v w' A B' ra [] [x] []) ∨
      (301 < roundUp m.i (effKeys L.nB).toNat ∧ openStep P L fresh m.wire B = (none, B') ∧
        Both P L K uidA uidB Uh (fresh :: Us) G' v w' A B' ra [] [] [])) := by
  obtain ⟨B', G', w', ⟨h1, h2⟩, h3⟩ := first_deliver S.prims S.a S.b S.keysB S.parse (ex := [])
    (fun ss h => by rw [S.start.stB] at h; cases h) (fun y hy _ x hx => S.start.sessB y hy x hx)
    S.start.priv S.privB (fun x hx _ ke p h => by rw [S.newB x hx] at h; cases h) IA hc hsn ho hk
    (by simp) pool D hla dr hm
  exact ⟨B', G', w', ⟨h1.1, h2⟩, h3⟩

theorem get_map {α β : Type} {f : α → β} {l : List α} {x : Nat} {b : β} (h : (l.map f)[x]? = some b) :
    ∃ a, l[x]? = some a ∧ f a = b := by
  rw [List.getElem?_map] at h
  cases hl : l[x]? with
  | none => rw [hl] at h; cases h
  | some a => rw [hl] at h; exact ⟨a, rfl, Option.some.inj h⟩

theorem get_none {α β γ : Type} {f : α → β} (g : α → γ) {l : List α} {x : Nat}
    (h : (l.map f)[x]? = none) : (l.map g)[x]? = none := by
  rw [List.getElem?_map] at h ⊢
  cases hl : l[x]? with
  | none => rfl
  | some a => rw [hl] at h; cases h

theorem Setting.step {P : Prims} {L : Link} {uidA uidB : UID} {K : List Bytes} {A0 B0 : MemStore}
    (S : Setting P L uidA uidB K A0 B0) {Uh Us : List Bytes} {t : Talk} {f : Ref} {ra rb : List Rec}
    (F : Phase P L K uidA uidB A0 B0 Uh Us t f ra rb) (a : Act) (as : List Act)
    (ha : a.OK P L uidA uidB) (hra : ra.length < 2 ^ 62) (hrb : rb.length < 2 ^ 62)
    (dr : Draws L K Uh Us (draws (a :: as))) :
    ∃ f' ra' rb' Uh' Us', Allowed P L f a (act P L t a).2 f' ∧
      Phase P L K uidA uidB A0 B0 Uh' Us' (act P L t a).1 f' ra' rb' ∧
      Draws L K Uh' Us' (draws as) ∧ ra'.length ≤ ra.length + 1 ∧ rb'.length ≤ rb.length + 1 := by
  have hP := S.prims
  cases a with
  | send fromA r =>
    have dr' := dr.send
    cases fromA with
    | true =>
      cases F with
      | zero hk =>
        obtain ⟨A', v, m, e1, e2, e3, e4, e5, e6, ⟨-, e9, -⟩, e7, e8⟩ := S.firstSend ha hk dr
        simp only [act, e1]
        obtain ⟨n1, n2⟩ := e8.note (ra := []) S.keysA e3 (by simp)
        rw [e2.1] at n1
        refine ⟨_, [m], [], _, _, .sendA _ _ _ _ n1 n2, ?_, dr', by simp, by simp⟩
        simp only
        rw [show ([] : List Sent) ++ [⟨r, m.h⟩] = [m].map Rec.e by rw [← e2.1]; rfl]
        exact .one e3 e4 e5 e6 (by simp [hk]) e7 e8 e9
      | @one s v A ra h1 h2 h3 h4 h5 h6 h7 h8 =>
        obtain ⟨A', m, e1, e2, e3, e4, e5, e6⟩ := send_party hP S.a S.keysA ha h1 h6 h7 hra dr
        simp only [act, e1]
        obtain ⟨n1, n2⟩ := e6.note S.keysA e3 hra
        rw [e2.1] at n1
        refine ⟨_, ra ++ [m], [], _, _, .sendA _ _ _ _ n1 n2, ?_, dr', by simp, by simp⟩
        simp only
        rw [show ra.map Rec.e ++ [⟨r, m.h⟩] = (ra ++ [m]).map Rec.e by rw [List.map_append, ← e2.1]; rfl,
          show ra.map Rec.wire ++ [m.wire] = (ra ++ [m]).map Rec.wire by rw [List.map_append]; rfl]
        exact .one e3 h2 h3 h4 (by simp [h5]) ⟨fun s hs => by
          obtain ⟨g1, g2, g3⟩ := h6.sess s hs
          exact ⟨by simp [g1], by simp [g2], g3⟩, e5, fun y hy => (nomatch hy),
          fun y hy => by simp [h6.ev y hy], fun y hy => absurd hy (by simp [view0])⟩ e6 h8
      | @two G v w A B ra rb gotB gotA H hv hw =>
        obtain ⟨A', v', m, e1, e2, e3⟩ := H.send hP S.a S.keysA ha hra dr
        simp only [act, e1]
        obtain ⟨n1, n2⟩ := e3.dA.note S.keysA e3.IA hra
        rw [e2.1] at n1
        refine ⟨_, ra ++ [m], rb, _, _, .sendA _ _ _ _ n1 n2, ?_, dr', by simp, by simp⟩
        simp only
        rw [show ra.map Rec.e ++ [⟨r, m.h⟩] = (ra ++ [m]).map Rec.e by rw [List.map_append, ← e2.1]; rfl,
          show ra.map Rec.wire ++ [m.wire] = (ra ++ [m]).map Rec.wire by rw [List.map_append]; rfl]
        exact .two e3 (e2.2.2.2.2.2.2.2.2.trans hv) hw
    | false =>
      cases F with
      | zero hk =>
        have e1 := send_early hP S.b (r := r) (st := B0) S.start.stB S.noPub
        refine ⟨⟨[], [], [], [], false⟩, [], [], r.rnd.headerPriv :: Uh, r.rnd.sessPriv :: r.rnd.nextPriv :: Us, ?_, ?_, dr',
          by simp, by simp⟩
        · simp only [act, e1]
          exact .early _ _ rfl
        · simp only [act, e1]
          exact .zero (by simp [hk])
      | @one s v A ra h1 h2 h3 h4 h5 h6 h7 h8 =>
        have e1 := send_early hP S.b (r := r) (st := B0) S.start.stB S.noPub
        refine ⟨⟨ra.map Rec.e, [], [], [], false⟩, ra, [], r.rnd.headerPriv :: Uh,
          r.rnd.sessPriv :: r.rnd.nextPriv :: Us, ?_, ?_, dr', by simp, by simp⟩
        · simp only [act, e1]
          exact .early _ _ rfl
        · simp only [act, e1]
          exact .one h1 h2 h3 h4 (by simp [h5]) (h6.more (fun x hx => by simp [hx]))
            (h7.later (Later.refl _ _) (fun x hx => by simp [hx]) rfl rfl) h8
      | @two G v w A B ra rb gotB gotA H hv hw =>
        obtain ⟨B', v', m, e1, e2, e3⟩ := H.symm.send hP S.b S.keysB ha hrb dr.symm
        refine ⟨⟨ra.map Rec.e, rb.map Rec.e ++ [⟨r, m.h⟩], gotB, gotA, true⟩, ra, rb ++ [m],
          r.rnd.headerPriv :: Uh, r.rnd.sessPriv :: r.rnd.nextPriv :: Us, ?_, ?_,
          dr', by simp, by simp⟩
        · simp only [act, e1]
          obtain ⟨n1, n2⟩ := e3.dA.note S.keysB e3.IA hrb
          rw [e2.1] at n1
          exact .sendB _ _ _ _ rfl n1 n2
        · simp only [act, e1]
          rw [show rb.map Rec.e ++ [⟨r, m.h⟩] = (rb ++ [m]).map Rec.e by rw [List.map_append, ← e2.1]; rfl,
            show rb.map Rec.wire ++ [m.wire] = (rb ++ [m]).map Rec.wire by rw [List.map_append]; rfl]
          have := e3.symm
          rw [map_flip_flip] at this
          exact .two this hv (e2.2.2.2.2.2.2.2.2.trans hw)
  | deliver toB x fresh =>
    have dr' := dr.deliver
    cases toB with
    | true =>
      cases hx : t.toB[x]? with
      | none =>
        refine ⟨f, ra, rb, Uh, fresh :: Us, ?_, ?_, dr', by simp, by simp⟩
        · simp only [act, hx]
          cases F with
          | zero hk => exact .noneB _ _ _ rfl
          | one h1 h2 h3 h4 h5 h6 h7 h8 => exact .noneB _ _ _ (get_none Rec.e hx)
          | two H hv hw => exact .noneB _ _ _ (get_none Rec.e hx)
        · simp only [act, hx]
          cases F with
          | zero hk => exact .zero (by simp [hk])
          | one h1 h2 h3 h4 h5 h6 h7 h8 =>
            exact .one h1 h2 h3 h4 (by simp [h5]) (h6.more (fun x hx => by simp [hx])) h7 h8
          | two H hv hw => exact .two (H.more (fun _ h => h) (fun x hx => by simp [hx])) hv hw
      | some wire =>
        simp only [act, hx]
        cases F with
        | zero hk => cases hx
        | @one s v A ra h1 h2 h3 h4 h5 h6 h7 h8 =>
          obtain ⟨m, hm, rfl⟩ := get_map hx
          have hfm : (ra.map Rec.e)[x]? = some m.e := by rw [List.getElem?_map, hm]; rfl
          obtain ⟨B', G', w', ⟨hw, -⟩, ⟨e1, e2⟩ | ⟨e1, e2, e3⟩⟩ := S.firstDeliver h1 h2 h3 h4 h5 h6 h7 hra dr hm
          · rw [e1]
            exact ⟨_, ra, [], Uh, fresh :: Us, .openB _ _ _ m.e hfm (by exact List.not_mem_nil), .two e2 h8 hw, dr', by simp, by simp⟩
          · rw [e2]
            exact ⟨_, ra, [], Uh, fresh :: Us, .farB _ _ _ _ hfm (h7.far hm hra e1), .two e3 h8 hw, dr', by simp, by simp⟩
        | @two G v w A B ra rb gotB gotA H hv hw =>
          obtain ⟨m, hm, rfl⟩ := get_map hx
          have hfm : (ra.map Rec.e)[x]? = some m.e := by rw [List.getElem?_map, hm]; rfl
          obtain ⟨B', G', w', ⟨-, -, -, -, -, -, hx'⟩, ⟨e0, e1, e2⟩ | ⟨e1, e2, e3⟩⟩ := H.deliver hP S.a S.b S.keysB S.parse hra hrb
            dr hm
          · rw [e1]
            exact ⟨_, ra, rb, Uh, fresh :: Us, .openB _ _ _ m.e hfm e0, .two e2 hv (hx'.trans hw), dr', by simp, by simp⟩
          · rw [e2]
            rcases e1 with e1 | e1
            · exact ⟨_, ra, rb, Uh, fresh :: Us, .againB _ _ _ _ hfm e1, .two e3 hv (hx'.trans hw), dr', by simp, by simp⟩
            · exact ⟨_, ra, rb, Uh, fresh :: Us, .farB _ _ _ _ hfm (H.dA.far hm hra e1), .two e3 hv (hx'.trans hw), dr', by simp, by simp⟩
    | false =>
      cases hx : t.toA[x]? with
      | none =>
        refine ⟨f, ra, rb, Uh, fresh :: Us, ?_, ?_, dr', by simp, by simp⟩
        · simp only [act, hx]
          cases F with
          | zero hk => exact .noneA _ _ _ rfl
          | one h1 h2 h3 h4 h5 h6 h7 h8 => exact .noneA _ _ _ rfl
          | two H hv hw => exact .noneA _ _ _ (get_none Rec.e hx)
        · simp only [act, hx]
          cases F with
          | zero hk => exact .zero (by simp [hk])
          | one h1 h2 h3 h4 h5 h6 h7 h8 =>
            exact .one h1 h2 h3 h4 (by simp [h5]) (h6.more (fun x hx => by simp [hx])) h7 h8
          | two H hv hw => exact .two (H.more (fun _ h => h) (fun x hx => by simp [hx])) hv hw
      | some wire =>
        simp only [act, hx]
        cases F with
        | zero hk => cases hx
        | one h1 h2 h3 h4 h5 h6 h7 h8 => cases hx
        | @two G v w A B ra rb gotB gotA H hv hw =>
          obtain ⟨m, hm, rfl⟩ := get_map hx
          have hfm : (rb.map Rec.e)[x]? = some m.e := by rw [List.getElem?_map, hm]; rfl
          obtain ⟨A', G', v', ⟨-, -, -, -, -, -, hx'⟩, ⟨e0, e1, e2⟩ | ⟨e1, e2, e3⟩⟩ := H.symm.deliver hP S.b S.a S.keysA S.parse hrb hra
            dr.symm hm
          · rw [e1]
            exact ⟨_, ra, rb, Uh, fresh :: Us, .openA _ _ _ m.e hfm e0, .two e2.symm (hx'.trans hv) hw, dr', by simp, by simp⟩
          · rw [e2]
            rcases e1 with e1 | e1
            · exact ⟨_, ra, rb, Uh, fresh :: Us, .againA _ _ _ _ hfm e1, .two e3.symm (hx'.trans hv) hw, dr', by simp, by simp⟩
            · exact ⟨_, ra, rb, Uh, fresh :: Us, .farA _ _ _ _ hfm (H.dB.far hm hrb e1), .two e3.symm (hx'.trans hv) hw, dr', by simp, by simp⟩

theorem Setting.steps {P : Prims} {L : Link} {uidA uidB : UID} {K : List Bytes} {A0 B0 : MemStore}
    (S : Setting P L uidA uidB K A0 B0) : ∀ (as : List Act) {Uh Us : List Bytes} {t : Talk} {f : Ref}
    {ra rb : List Rec}, Phase P L K uidA uidB A0 B0 Uh Us t f ra rb →
    (∀ a ∈ as, a.OK P L uidA uidB) → ra.length + as.length < 2 ^ 62 → rb.length + as.length < 2 ^ 62 →
    Draws L K Uh Us (draws as) → Agree P L f as (talk P L t as) := by
  intro as
  induction as with
  | nil => intros; exact .nil _
  | cons a as ih =>
    intro Uh Us t f ra rb F ha hra hrb dr
    rw [List.length_cons] at hra hrb
    obtain ⟨f', ra', rb', Uh', Us', e1, e2, e3, e4, e5⟩ := S.step F a as (ha a (by simp)) (by omega)
      (by omega) dr
    exact .cons e1 (ih e2 (fun a h => ha a (by simp [h])) (by omega) (by omega) e3)

/-- C145: two users who have never communicated, of whom the first has the second's KeyInit, send
each other messages and open them, in any order, any number of times, with any of the random
choices about new sessions.  Every message opens with exactly what was sent, once; an attempt fails
only if the message was opened before or is too far from the beginning of its session. -/
theorem C145_conversation_partial {P : Prims} {L : Link} {uidA uidB : UID} {A B : MemStore} (as : List Act)
    (S : Setting P L uidA uidB (L.aPriv :: L.bPriv :: L.kPriv :: draws as) A B)
    (hnd : (L.aPriv :: L.bPriv :: L.kPriv :: draws as).Nodup)
    (hok : ∀ a ∈ as, a.OK P L uidA uidB) (hlen : as.length < 2 ^ 62) :
    Agree P L ⟨[], [], [], [], false⟩ as (talk P L ⟨A, B, [], []⟩ as) := by
  refine S.steps as (Uh := []) (Us := [L.kPriv]) (.zero (by simp)) hok (by simpa using hlen)
    (by simpa using hlen) ?_
  simp only [List.nodup_cons, List.mem_cons, not_or] at hnd
  obtain ⟨⟨n1, n2, n3⟩, ⟨n4, n5⟩, n6, n7⟩ := hnd
  refine ⟨fun x h => absurd h (by simp), ?_, ?_, n1, n7⟩
  · intro x hx
    rw [List.mem_singleton] at hx; subst hx
    exact ⟨by simp, fun e => n2 e.symm, fun e => n4 e.symm, n6⟩
  · intro x hx
    exact ⟨by simp [hx], fun e => n3 (e ▸ hx), fun e => n5 (e ▸ hx)⟩

end Two
end Verif.Msg

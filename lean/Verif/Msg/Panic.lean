import Verif.Msg.Sender
/-
C60: when does Decrypt panic?
-/
namespace Verif.Msg
open Prog
open Wire (Outer newOuter newPre)

/-! ### Two messages crash the recipient -/

/-- What Decrypt is called with for a message whose header `h` was sealed for the
recipient `bob` (key `b`) with the header key `x`; `rest` follows the header. -/
def sealedArgs (P : Prims) (bob : UID) (b x nonce : Bytes) (h : Header) (rest : Bytes) (n : UInt64)
    (fresh : Bytes) : DecArgs :=
  ⟨[bob], (newPre (P.dhPub x)).write,
    (newOuter Wire.encryptedHeader 1 (nonce ++ be16 7168 ++
      P.boxSeal (P.marshal h) nonce (P.dhPub b) x)).write true ++ rest, n, fresh⟩

theorem sealed_head (P : Prims) (hP : P.Good) (bob : UID) (b x nonce : Bytes) (h : Header)
    (hb : bob.pubKey = initDHKey P b) (hn : nonce.length = 24)
    (hlen : (P.marshal h).length = 7152) (hparse : P.parse (P.marshal h) = some h)
    (hv : h.verify P = true) (rest : Bytes) (n : UInt64) (fresh : Bytes) :
    (decHead P (sealedArgs P bob b x nonce h rest n fresh)).out =
      .ok (P.dhPub x, bob, h, rest) :=
  decHead_message P hP ⟨x, [], [], nonce, List.replicate 16 0, false, fun n => List.replicate n 0,
    fun n => List.replicate n 0⟩ ⟨hn, List.length_replicate, fun _ => List.length_replicate,
    fun _ => List.length_replicate⟩ h hlen hparse hv bob b hb rest n fresh

/-- C60 fails: anybody who can send to `bob` crashes bob's client with two
messages.  `m` is the sender's own identity key, `s` the session key and `x` the
header key they draw, `k` the key of one of bob's published KeyInit messages.
The header announces the sender's own identity key as the next session key.  The
first message is rejected as a reflection attack, but only after a session without
session state was stored; the second message (same header, any bodies) panics. -/
theorem C60_negation_two_messages (P : Prims) (hP : P.Good) (bob : UID) (b m s k x nonce : Bytes)
    (h : Header) (B : MemStore)
    (hb : bob.pubKey = initDHKey P b) (hn : nonce.length = 24)
    (hlen : (P.marshal h).length = 7152) (hparse : P.parse (P.marshal h) = some h)
    (h1 : h.senderSessionPub = (initDHKey P s).public)
    (h2 : h.senderIdentityPub = (initDHKey P m).public)
    (h3 : h.recipientTempHash = keyHash P k)
    (h4 : h.nextSenderSessionPub = some (initDHKey P m).public)
    (h5 : h.nextRecipientSessionPubSeen = none)
    (hd : AllDifferent [P.dhPub x, P.dhPub m, P.dhPub s, P.dhPub b, P.dhPub k])
    (hst : B.states (calcStateKey P (P.dhPub b) (P.dhPub m)) = none)
    (hses : ∀ key, B.sessions key = none)
    (hpriv : B.privs (keyHash P k) = some (initDHKey P k))
    (rest1 rest2 : Bytes) (n1 n2 : UInt64) (fresh1 fresh2 : Bytes) :
    ∃ B1,
      (decrypt P (sealedArgs P bob b x nonce h rest1 n1 fresh1)).run (MemStore.handle P) B =
        (.err .reflection, B1) ∧
      ((decrypt P (sealedArgs P bob b x nonce h rest2 n2 fresh2)).run (MemStore.handle P) B1).1 =
        .panic := by
  have hv : h.verify P = true := by
    simp only [Header.verify, h1, h2, h4, h5, initDHKey_public_verify P hP, Option.all_some,
      Option.all_none, Bool.and_true, Bool.true_and]
  have key : decSessionKey P bob h = calcKey P (keyHash P b) (keyHash P m) (keyHash P k)
      (keyHash P s) := by
    simp only [decSessionKey, hb, h1, h2, h3]; rfl
  have head := sealed_head P hP bob b x nonce h hb hn hlen hparse hv
  obtain ⟨t, ft, rt⟩ := run_generate_new P h.senderIdentity bob.identity
    (initDHKey P m).public.hash (initDHKey P b).hash
    (deriveRootKey P (P.dh m (P.dhPub k)) (P.dh s (P.dhPub k)) (P.dh s (P.dhPub b)) none) true
    (P.dhPub s) (P.dhPub k) (effKeys n1) (effKeys_ne _) B (hses _)
  have hk2 : genKey P (initDHKey P m).public.hash (initDHKey P b).hash true (P.dhPub s)
      (P.dhPub k) = calcKey P (keyHash P b) (keyHash P m) (keyHash P k) (keyHash P s) := rfl
  rw [hk2] at rt
  refine ⟨(MemStore.handle P (.addSKey (initDHKey P fresh1).hash (initDHKey P fresh1).public
    (P.b64 fresh1)) (B.setSess (calcKey P (keyHash P b) (keyHash P m) (keyHash P k)
      (keyHash P s)) t)).2, ?_, ?_⟩
  · rw [decrypt_head (head rest1 n1 fresh1)]
    unfold decTail
    rw [run_bind]
    suffices hs : (decSession P (sealedArgs P bob b x nonce h rest1 n1 fresh1) (effKeys n1) (P.dhPub x)
        bob h).run (MemStore.handle P) B = (.err .reflection, (MemStore.handle P (.addSKey
          (initDHKey P fresh1).hash (initDHKey P fresh1).public (P.b64 fresh1)) (B.setSess
            (calcKey P (keyHash P b) (keyHash P m) (keyHash P k) (keyHash P s)) t)).2) by
      rw [show (sealedArgs P bob b x nonce h rest1 n1 fresh1).numOfKeys = n1 from rfl, hs]
    unfold decSession
    rw [key]
    simp only [bind_eq, hb, h2, initDHKey_pub32 P hP, initDHKey_public_pub32 P hP, orPanic,
      ret_bind]
    rw [run_bind_of_ok (a := none) (s1 := B) _ (by
      rw [run_ask_ok]; simp only [MemStore.handle]; rw [hst])]
    rw [run_bind_of_ok (a := false) (s1 := B) _ (by
      rw [run_try']; simp only [MemStore.handle, MemStore.hasSession, hses,
        Option.isSome_none])]
    rw [if_neg (by simp)]
    unfold decUnknown
    simp only [bind_eq]
    rw [run_bind_of_ok (a := .ok (initDHKey P k)) (s1 := B) _ (by
      rw [run_try', h3]; simp only [MemStore.handle, MemStore.getPrivateKeyEntry, hpriv])]
    simp only [if_true, h4, hb]
    rw [h2, h1, rkaRecipient_eq P hP (P.dhPub x) _ _ s m k b _ _ (initDHKey_public_pub32 P hP _)
      (initDHKey_public_pub32 P hP _) none _ hd]
    rw [run_bind_of_ok _ rt]
    simp only [addSessionKey, bind_eq, initDHKey_priv32, orPanic, ret_bind]
    rw [run_bind_of_ok (a := ()) _ (by rw [run_ask_ok]; rfl)]
    rw [run_bind_of_ok (a := P.sha512 (deriveRootKey P (P.dh m (P.dhPub k)) (P.dh s (P.dhPub k))
      (P.dh s (P.dhPub b)) none)) (s1 := (MemStore.handle P (.addSKey
          (initDHKey P fresh1).hash (initDHKey P fresh1).public (P.b64 fresh1)) (B.setSess
            (calcKey P (keyHash P b) (keyHash P m) (keyHash P k) (keyHash P s)) t)).2)]
    · rw [run_bind, (C06_reflection_rejected P _ _ _ _ _ _ _ _ _ _ _ _ _ _ (initDHKey_pub32 P hP _)
        (initDHKey_pub32 P hP _) (initDHKey_public_pub32 P hP _)
        (initDHKey_public_pub32 P hP _) (by simp [AllDifferent])).1 (by simp) (by simp)]
    · rw [run_ask_ok]
      simp only [MemStore.handle, MemStore.getRootKeyHash, MemStore.setSess, upd_same, ft.1,
        hP.unb64_b64, hP.sha512_len]
      rw [if_neg (by omega), List.take_of_length_le (by rw [hP.sha512_len]; omega)]
      rfl
  · rw [decrypt_head (head rest2 n2 fresh2)]
    unfold decTail
    rw [run_bind]
    suffices hs : ((decSession P (sealedArgs P bob b x nonce h rest2 n2 fresh2) (effKeys n2)
        (P.dhPub x) bob h).run (MemStore.handle P) (MemStore.handle P (.addSKey
          (initDHKey P fresh1).hash (initDHKey P fresh1).public (P.b64 fresh1)) (B.setSess
            (calcKey P (keyHash P b) (keyHash P m) (keyHash P k) (keyHash P s)) t)).2).1 = .panic by
      rw [show (sealedArgs P bob b x nonce h rest2 n2 fresh2).numOfKeys = n2 from rfl]
      generalize (decSession P (sealedArgs P bob b x nonce h rest2 n2 fresh2) (effKeys n2)
        (P.dhPub x) bob h).run (MemStore.handle P) _ = y at hs ⊢
      obtain ⟨y1, y2⟩ := y
      subst hs
      rfl
    unfold decSession
    rw [key]
    simp only [bind_eq, hb, h2, initDHKey_pub32 P hP, initDHKey_public_pub32 P hP, orPanic,
      ret_bind]
    rw [run_bind_of_ok (a := none) _ (by
      rw [run_ask_ok]; simp only [MemStore.handle, MemStore.setSess]; rw [hst])]
    rw [run_bind_of_ok (a := true) _ (by
      rw [run_try']; simp only [MemStore.handle, MemStore.hasSession, MemStore.setSess, upd_same,
        Option.isSome_some]; rfl)]
    rw [if_pos rfl]
    rfl

/-- The header of the attack under the toy primitives; the recipient is an
ordinary user with a KeyInit key. -/
def Toy.attackHeader : Header :=
  { Toy.header0 with
    recipientTempHash := keyHash Toy.P0 [4], senderIdentity := [97],
    senderSessionPub := (initDHKey Toy.P0 [2]).public,
    senderIdentityPub := (initDHKey Toy.P0 [3]).public,
    nextSenderSessionPub := some (initDHKey Toy.P0 [3]).public }

example : ∃ (P : Prims) (bob : UID) (b m s k x nonce : Bytes) (h : Header) (B : MemStore), P.Good ∧
    bob.pubKey = initDHKey P b ∧ nonce.length = 24 ∧ (P.marshal h).length = 7152 ∧
    P.parse (P.marshal h) = some h ∧ h.senderSessionPub = (initDHKey P s).public ∧
    h.senderIdentityPub = (initDHKey P m).public ∧ h.recipientTempHash = keyHash P k ∧
    h.nextSenderSessionPub = some (initDHKey P m).public ∧
    h.nextRecipientSessionPubSeen = none ∧
    AllDifferent [P.dhPub x, P.dhPub m, P.dhPub s, P.dhPub b, P.dhPub k] ∧
    B.states (calcStateKey P (P.dhPub b) (P.dhPub m)) = none ∧
    (∀ key, B.sessions key = none) ∧ B.privs (keyHash P k) = some (initDHKey P k) :=
  ⟨Toy.prims Toy.attackHeader Toy.uid0, Toy.uidT, [1], [3], [2], [4], [5], List.replicate 24 0,
    Toy.attackHeader, { MemStore.new with
      privs := upd (fun _ => none) (keyHash (Toy.prims Toy.attackHeader Toy.uid0) [4])
        (some (initDHKey (Toy.prims Toy.attackHeader Toy.uid0) [4])) },
    Toy.good _ _, rfl, rfl, List.length_replicate, rfl, rfl, rfl, rfl, rfl, rfl,
    by decide +kernel, rfl, fun _ => rfl,
    upd_same (fun _ => none) (keyHash (Toy.prims Toy.attackHeader Toy.uid0) [4]) _⟩

/-! ### A bad signature key -/

section
variable (P : Prims) (f : Str → Option UID)

/-- Only the end of Decrypt reads UID messages: everything before is the same for
another parser of UID messages. -/
theorem tryOpen_uid (ct n hp : Bytes) (ids : List UID) :
    tryOpen { P with parseUID := f } ct n hp ids = tryOpen P ct n hp ids := by
  induction ids with
  | nil => rfl
  | cons u us ih => unfold tryOpen; rw [ih]

theorem decHead_uid (a : DecArgs) : decHead { P with parseUID := f } a = decHead P a := by
  unfold decHead readHeader
  simp only [tryOpen_uid]
  rfl

theorem genLoop_uid (s r x : Bytes) (n : Nat) (c : Bytes) :
    genLoop { P with parseUID := f } s r x n c = genLoop P s r x n c := by
  induction n generalizing c with
  | zero => rfl
  | succ n ih => unfold genLoop; rw [ih]; rfl

theorem generate_uid (a b c d : Str) (e : Bytes) (g : Bool) (h i : Bytes) (n : UInt64) :
    generateMessageKeys { P with parseUID := f } a b c d e g h i n =
      generateMessageKeys P a b c d e g h i n := by
  unfold generateMessageKeys
  simp only [genLoop_uid]
  rfl

theorem rkaSender_uid (hp : Bytes) (a b : Str) (c d e g : KeyEntry) (p : Option Bytes)
    (n : UInt64) : rootKeyAgreementSender { P with parseUID := f } hp a b c d e g p n =
      rootKeyAgreementSender P hp a b c d e g p n := by
  unfold rootKeyAgreementSender
  simp only [generate_uid]
  rfl

theorem rkaRecipient_uid (hp : Bytes) (a b : Str) (c d e g : KeyEntry) (p : Option Bytes)
    (n : UInt64) : rootKeyAgreementRecipient { P with parseUID := f } hp a b c d e g p n =
      rootKeyAgreementRecipient P hp a b c d e g p n := by
  unfold rootKeyAgreementRecipient
  simp only [generate_uid]
  rfl

theorem decSession_uid (a : DecArgs) (n : UInt64) (hp : Bytes) (u : UID) (h : Header) :
    decSession { P with parseUID := f } a n hp u h = decSession P a n hp u h := by
  unfold decSession decKnown decUnknown
  simp only [rkaSender_uid, rkaRecipient_uid]
  rfl

theorem decExtend_uid (n : UInt64) (u : UID) (h : Header) (k : Str) (ss : Option State) :
    decExtend { P with parseUID := f } n u h k ss = decExtend P n u h k ss := by
  unfold decExtend
  simp only [generate_uid]
  rfl

theorem ctr_uid (k iv : Bytes) (i : Nat) (x : Bytes) :
    ctr { P with parseUID := f } k iv i x = ctr P k iv i x := by
  induction x generalizing i with
  | nil => rfl
  | cons y ys ih => unfold ctr; rw [ih]

theorem handle_uid {β : Type} (r : Req β) (st : MemStore) :
    MemStore.handle { P with parseUID := f } r st = MemStore.handle P r st := by
  cases r <;> rfl

theorem run_uid {α : Type} (p : Prog α) (st : MemStore) :
    p.run (MemStore.handle { P with parseUID := f }) st = p.run (MemStore.handle P) st := by
  induction p generalizing st with
  | ret a => rfl
  | fail e => rfl
  | panic => rfl
  | call r k ih => simp only [Prog.run, handle_uid, ih]

end

/-- C60 fails: take any message Decrypt accepts and whose signature it returns.
If the UID message its header carries names a signature key that is no 32-byte
key, Decrypt panics (the signature key of the UID message is used without any
check). -/
theorem C60_negation_bad_signature_key (P : Prims) (a : DecArgs) (st st' : MemStore)
    (sender sig : Str) (hsig : sig ≠ [])
    (hok : (decrypt P a).run (MemStore.handle P) st = (.ok (sender, sig), st'))
    (bad : UID) (hbad : bad.sigKey.pub32 P = none) :
    ((decrypt { P with parseUID := fun _ => some bad } a).run
      (MemStore.handle { P with parseUID := fun _ => some bad }) st).1 = .panic := by
  obtain ⟨hp, u, h, r, ss, st0, st1, st2, mk, e0, e1, e2, e3, e4, e5, e6⟩ := decrypt_ok hok
  obtain ⟨p2, p3, p4, p5, i1, i2, rest, uid, f1, f2, f3, f4⟩ := decBody_ok e4
  let P' : Prims := { P with parseUID := fun _ => some bad }
  have e0' : (decHead P' a).out = .ok (hp, u, h, r) := by rw [decHead_uid]; exact e0
  have e1' : (decSession P' a (effKeys a.numOfKeys) hp u h).run (MemStore.handle P') st =
    (.ok ss, st0) := by rw [decSession_uid, run_uid]; exact e1
  have e2' : (decExtend P' (effKeys a.numOfKeys) u h (decSessionKey P' u h) ss).run
    (MemStore.handle P') st0 = (.ok (), st1) := by
      rw [decExtend_uid, run_uid]; exact e2
  have e3' : st1.getMessageKey P' (decSessionKey P' u h) false h.senderMessageCount = .ok mk := e3
  rw [decrypt_head (P := P') e0']
  unfold decTail
  rw [run_bind_of_ok _ e1', run_bind_of_ok _ e2', run_bind_of_ok (a := mk) (s1 := st1) _ (by
    rw [run_ask_ok]; simp only [MemStore.handle, e3'])]
  suffices hs : ((decBody P' mk h.senderUID r).run (MemStore.handle P') st1).1 = .panic by
    rw [run_bind]
    generalize (decBody P' mk h.senderUID r).run (MemStore.handle P') st1 = y at hs ⊢
    obtain ⟨y1, y2⟩ := y
    subst hs
    rfl
  obtain ⟨t1, c1⟩ := f2.inner1
  obtain ⟨t2, g1⟩ := f2.inner2
  have hs := f2.sig_ok
  have hsg : (i1.type &&& Wire.signType != 0) = true := by
    by_cases hc : (i1.type &&& Wire.signType != 0) = true
    · exact hc
    · rw [if_neg hc] at hs; exact absurd hs.2 hsig
  rw [if_pos hsg] at hs
  obtain ⟨g2, g3, -⟩ := hs
  rw [f1]
  unfold decBody bodyBytes
  simp only [bind_eq, List.append_assoc]
  rw [run_bind_of_ok _ (run_readPacket _ p2 _ _ _ _ st1 f2.type2 f2.count2 rfl f2.len2)]
  simp only [f2.plen2, failIf, ne_eq, not_true_eq_false, decide_false,
    Bool.false_eq_true, if_false, ret_bind]
  rw [run_bind_of_ok _ (run_readPacket _ p3 _ _ _ _ st1 f2.type3 f2.count3 rfl f2.len3)]
  have c1' : Wire.readInner (ctr P' (deriveSymmetricKeys P' mk).1 p2.inner 0 p3.inner) =
    .ok (i1, t1) := by rw [ctr_uid]; exact c1
  have g1' : Wire.readInner (ctr P' (deriveSymmetricKeys P' mk).1 p2.inner p3.inner.length
    p4.inner) = .ok (i2, t2) := by rw [ctr_uid]; exact g1
  simp only [c1', Prog.wire, ret_bind, f2.data, Bool.false_eq_true, if_false]
  rw [run_bind_of_ok _ (run_try' _ _ st1)]
  simp only [MemStore.handle]
  rw [run_bind_of_ok _ (run_readPacket _ p4 _ _ _ _ _ f2.type4 f2.count4 rfl f2.len4)]
  simp only [g1', ret_bind]
  have hbad' : bad.sigKey.pub32 P' = none := hbad
  rw [if_pos hsg]
  simp only [g2, g3, hsg, if_true, Bool.false_eq_true, if_false, ret_bind, not_true_eq_false,
    decide_false, show P'.parseUID h.senderUID = some bad from rfl, hbad', orPanic]
  rfl

example : ∃ (P : Prims) (a : DecArgs) (st st' : MemStore) (sender sig : Str) (bad : UID),
    sig ≠ [] ∧ (decrypt P a).run (MemStore.handle P) st = (.ok (sender, sig), st') ∧
    bad.sigKey.pub32 P = none :=
  let ⟨sig, st', h, hs, _⟩ := Toy.accepted
  ⟨_, _, _, st', _, sig, Toy.uid0, hs, h, by decide +kernel⟩

/-! ### Without such keys and states there is no panic -/

/-- Running `p` does not panic, and on success the result and the store satisfy
`Q`. -/
def wp {α : Type} (P : Prims) (p : Prog α) (Q : α → MemStore → Prop) (st : MemStore) : Prop :=
  match p.run (MemStore.handle P) st with
  | (.ok a, st') => Q a st'
  | (.err _, _) => True
  | (.panic, _) => False

section
variable {P : Prims} {α β : Type}

theorem wp_ret {a : α} {Q : α → MemStore → Prop} {st : MemStore} (h : Q a st) :
    wp P (.ret a) Q st := h

theorem wp_fail {e : Err} {Q : α → MemStore → Prop} {st : MemStore} :
    wp P (.fail e : Prog α) Q st := trivial

theorem wp_bind {p : Prog α} {f : α → Prog β} {Q : β → MemStore → Prop} {st : MemStore}
    (h : wp P p (fun a st' => wp P (f a) Q st') st) : wp P (p.bind f) Q st := by
  unfold wp at h ⊢
  rw [run_bind]
  generalize p.run (MemStore.handle P) st = x at h ⊢
  obtain ⟨x1, x2⟩ := x
  cases x1 with
  | ok a => exact h
  | err e => trivial
  | panic => exact h

theorem wp_mono {p : Prog α} {Q R : α → MemStore → Prop} {st : MemStore}
    (h : wp P p Q st) (hq : ∀ a st', Q a st' → R a st') : wp P p R st := by
  unfold wp at h ⊢
  generalize p.run (MemStore.handle P) st = x at h ⊢
  obtain ⟨x1, x2⟩ := x
  cases x1 with
  | ok a => exact hq _ _ h
  | err e => trivial
  | panic => exact h

theorem wp_ask {r : Req (Except SErr α)} {Q : α → MemStore → Prop} {st : MemStore}
    (h : ∀ a, (MemStore.handle P r st).1 = .ok a → Q a (MemStore.handle P r st).2) :
    wp P (Prog.ask r) Q st := by
  unfold wp
  rw [run_ask]
  generalize MemStore.handle P r st = x at h ⊢
  obtain ⟨x1, x2⟩ := x
  cases x1 with
  | ok a => exact h a rfl
  | error e => trivial

theorem wp_try {r : Req α} {Q : α → MemStore → Prop} {st : MemStore}
    (h : Q (MemStore.handle P r st).1 (MemStore.handle P r st).2) :
    wp P (Prog.try' r) Q st := h

theorem wp_failIf {c : Bool} {e : Err} {Q : Unit → MemStore → Prop} {st : MemStore}
    (h : c = false → Q () st) : wp P (failIf c e) Q st := by
  cases c with
  | true => trivial
  | false => exact h rfl

theorem wp_ite {c : Prop} [Decidable c] {p q : Prog α} {Q : α → MemStore → Prop} {st : MemStore}
    (h1 : c → wp P p Q st) (h2 : ¬ c → wp P q Q st) : wp P (if c then p else q) Q st := by
  split
  · exact h1 ‹_›
  · exact h2 ‹_›

theorem wp_orPanic {o : Option α} {Q : α → MemStore → Prop} {st : MemStore} {a : α}
    (ho : o = some a) (h : Q a st) : wp P (orPanic o) Q st := by
  subst ho; exact h

theorem wp_wire {x : Res Wire.Err α} {Q : α → MemStore → Prop} {st : MemStore} (hx : x ≠ .panic)
    (h : ∀ a, x = .ok a → Q a st) : wp P (Prog.wire x) Q st := by
  cases x with
  | ok a => exact h a rfl
  | err e => trivial
  | panic => exact absurd rfl hx

theorem wp_readPacket {r : Bytes} {t : UInt8} {e : Err} {c : UInt32}
    {Q : Outer × Bytes → MemStore → Prop} {st : MemStore} (h : ∀ x, Q x st) :
    wp P (readPacket r t e c) Q st := by
  unfold readPacket
  refine wp_bind (wp_wire (Wire.readOuter_total _) fun x _ => ?_)
  exact wp_bind (wp_failIf fun _ => wp_bind (wp_failIf fun _ => wp_ret (h _)))

/-- A program without store calls leaves the store alone. -/
theorem wp_noCall {p : Prog α} (hp : NoCall p) {Q : α → MemStore → Prop} {st : MemStore}
    (h1 : p.out ≠ .panic) (h2 : ∀ a, p.out = .ok a → Q a st) : wp P p Q st := by
  unfold wp
  rw [hp.run]
  generalize p.out = x at h1 h2
  cases x with
  | ok a => exact h2 a rfl
  | err e => trivial
  | panic => exact absurd rfl h1

end

/-- A usable public key. -/
def PubOK (P : Prims) (k : KeyEntry) : Prop := (k.pub32 P).isSome

/-- A usable key pair. -/
def PairOK (P : Prims) (k : KeyEntry) : Prop := (k.pub32 P).isSome ∧ k.priv32.isSome

theorem initDHKey_pair (P : Prims) (hP : P.Good) (x : Bytes) : PairOK P (initDHKey P x) := by
  simp [PairOK, initDHKey_pub32 P hP]

/-- A key that passes the header check is usable. -/
theorem verify_pub {P : Prims} {k : KeyEntry} (h : (k.verify P && k.func == .ecdhe) = true) :
    PubOK P k := by
  simp only [KeyEntry.verify, Bool.and_eq_true, beq_iff_eq] at h
  obtain ⟨⟨-, hv⟩, hf⟩ := h
  split at hv
  · cases hv
  simp only [Bool.and_eq_true] at hv
  obtain ⟨-, hv⟩ := hv
  split at hv
  · cases hv
  rename_i pk hpk'
  simp only [Bool.and_eq_true, beq_iff_eq] at hv
  simp [PubOK, KeyEntry.pub32, hpk', hv.1, hf]

/-- The keys of a verified header are usable. -/
structure HeaderOK (P : Prims) (h : Header) : Prop where
  sess : PubOK P h.senderSessionPub
  ident : PubOK P h.senderIdentityPub
  next : ∀ k, h.nextSenderSessionPub = some k → PubOK P k

theorem headerOK {P : Prims} {h : Header} (hv : h.verify P = true) : HeaderOK P h := by
  simp only [Header.verify, Bool.and_eq_true] at hv
  obtain ⟨⟨⟨h1, h2⟩, h3⟩, -⟩ := hv
  refine ⟨verify_pub (by simpa using h1), verify_pub (by simpa using h2), ?_⟩
  intro k hk
  rw [hk] at h3
  exact verify_pub (by simpa using h3)

/-- What the recipient's store has to satisfy: its keys are usable, the session
key a state announces has not been deleted, and a session state exists for every
peer with whom a session exists. -/
structure StoreOK (P : Prims) (ids : List UID) (st : MemStore) : Prop where
  privs : ∀ h k, st.privs h = some k → PairOK P k
  skeys : ∀ h k p, st.skeys h = some (k, p) → PubOK P k ∧ k.func = .ecdhe
  cur : ∀ key s, st.states key = some s → PubOK P s.senderSessionPub
  next : ∀ key s sn, st.states key = some s → s.nextSenderSessionPub = some sn → PubOK P sn ∧
    ∀ k p, st.skeys sn.hash = some (k, p) → p ≠ []
  state : ∀ u ∈ ids, ∀ h : Header, ∀ rp sp, u.pubKey.pub32 P = some rp →
    h.verify P = true → h.senderIdentityPub.pub32 P = some sp → (st.sessions (decSessionKey P u h)).isSome →
    (st.states (calcStateKey P rp sp)).isSome

section
variable {P : Prims}

theorem wp_generate {a b c d : Str} {e : Bytes} {f : Bool} {g i : Bytes} {n : UInt64}
    {Q : Unit → MemStore → Prop} {st : MemStore}
    (h : ∀ r : Req (Except SErr Unit), (∃ k x y s t, r = .storeSession k x y s t) →
      Q () (MemStore.handle P r st).2) :
    wp P (generateMessageKeys P a b c d e f g i n) Q st := by
  unfold generateMessageKeys
  exact wp_ask fun x _ => h _ ⟨_, _, _, _, _, rfl⟩

theorem checkKeys_out (a b c d e : Bytes) : (checkKeys a b c d e).out ≠ .panic := by
  unfold checkKeys
  repeat' split
  all_goals simp [Prog.out]

theorem ecdh_out (P : Prims) (a b c : Bytes) : (ecdh P a b c).out ≠ .panic := by
  unfold ecdh
  split <;> simp [Prog.out]

/-- Storing a session changes nothing else. -/
theorem storeSession_frame {β : Type} (r : Req β) (st : MemStore)
    (hr : ∃ k x y s t, HEq r (Req.storeSession k x y s t)) (hβ : β = Except SErr Unit) :
    (MemStore.handle P r st).2.states = st.states ∧ (MemStore.handle P r st).2.skeys = st.skeys ∧
    (MemStore.handle P r st).2.privs = st.privs := by
  subst hβ
  obtain ⟨k, x, y, s, t, h⟩ := hr
  cases h
  simp only [MemStore.handle, MemStore.storeSession]
  split
  · exact ⟨rfl, rfl, rfl⟩
  · split <;> exact ⟨rfl, rfl, rfl⟩

/-- Same states, session keys and private keys. -/
def SameKeys (a b : MemStore) : Prop :=
  a.states = b.states ∧ a.skeys = b.skeys ∧ a.privs = b.privs

theorem wp_rkaSender {hp : Bytes} {si ri : Str} {sess sid ki rid : KeyEntry} {prev : Option Bytes}
    {n : UInt64} {Q : Unit → MemStore → Prop} {st : MemStore}
    (h1 : PairOK P sess) (h2 : PairOK P sid) (h3 : PubOK P ki) (h4 : PubOK P rid)
    (hQ : ∀ st', SameKeys st' st → Q () st') :
    wp P (rootKeyAgreementSender P hp si ri sess sid ki rid prev n) Q st := by
  obtain ⟨a1, e1⟩ := Option.isSome_iff_exists.mp h1.1
  obtain ⟨a2, e2⟩ := Option.isSome_iff_exists.mp h1.2
  obtain ⟨a3, e3⟩ := Option.isSome_iff_exists.mp h2.1
  obtain ⟨a4, e4⟩ := Option.isSome_iff_exists.mp h2.2
  obtain ⟨a5, e5⟩ := Option.isSome_iff_exists.mp h3
  obtain ⟨a6, e6⟩ := Option.isSome_iff_exists.mp h4
  unfold rootKeyAgreementSender
  simp only [e1, e2, e3, e4, e5, e6, orPanic, bind_eq, ret_bind]
  refine wp_bind (wp_noCall (noCall_checkKeys _ _ _ _ _) (checkKeys_out _ _ _ _ _) fun _ _ => ?_)
  refine wp_bind (wp_noCall (noCall_ecdh _ _ _ _) (ecdh_out _ _ _ _) fun _ _ => ?_)
  refine wp_bind (wp_noCall (noCall_ecdh _ _ _ _) (ecdh_out _ _ _ _) fun _ _ => ?_)
  refine wp_bind (wp_noCall (noCall_ecdh _ _ _ _) (ecdh_out _ _ _ _) fun _ _ => ?_)
  refine wp_generate fun r ⟨k, x, y, s, t, hr⟩ => hQ _ ?_
  exact storeSession_frame r st ⟨k, x, y, s, t, heq_of_eq hr⟩ rfl

theorem wp_rkaRecipient {hp : Bytes} {si ri : Str} {sess sid ki rid : KeyEntry}
    {prev : Option Bytes} {n : UInt64} {Q : Unit → MemStore → Prop} {st : MemStore}
    (h1 : PubOK P sess) (h2 : PubOK P sid) (h3 : PairOK P ki) (h4 : PairOK P rid)
    (hQ : ∀ st', SameKeys st' st → Q () st') :
    wp P (rootKeyAgreementRecipient P hp si ri sess sid ki rid prev n) Q st := by
  obtain ⟨a1, e1⟩ := Option.isSome_iff_exists.mp h1
  obtain ⟨a2, e2⟩ := Option.isSome_iff_exists.mp h2
  obtain ⟨a3, e3⟩ := Option.isSome_iff_exists.mp h3.1
  obtain ⟨a4, e4⟩ := Option.isSome_iff_exists.mp h3.2
  obtain ⟨a5, e5⟩ := Option.isSome_iff_exists.mp h4.1
  obtain ⟨a6, e6⟩ := Option.isSome_iff_exists.mp h4.2
  unfold rootKeyAgreementRecipient
  simp only [e1, e2, e3, e4, e5, e6, orPanic, bind_eq, ret_bind]
  refine wp_bind (wp_noCall (noCall_checkKeys _ _ _ _ _) (checkKeys_out _ _ _ _ _) fun _ _ => ?_)
  refine wp_bind (wp_noCall (noCall_ecdh _ _ _ _) (ecdh_out _ _ _ _) fun _ _ => ?_)
  refine wp_bind (wp_noCall (noCall_ecdh _ _ _ _) (ecdh_out _ _ _ _) fun _ _ => ?_)
  refine wp_bind (wp_noCall (noCall_ecdh _ _ _ _) (ecdh_out _ _ _ _) fun _ _ => ?_)
  refine wp_generate fun r ⟨k, x, y, s, t, hr⟩ => hQ _ ?_
  exact storeSession_frame r st ⟨k, x, y, s, t, heq_of_eq hr⟩ rfl

/-- What `decExtend` needs of keys. -/
structure KeysOK (P : Prims) (st : MemStore) : Prop where
  privs : ∀ h k, st.privs h = some k → PubOK P k
  skeys : ∀ h k p, st.skeys h = some (k, p) → PubOK P k ∧ k.func = .ecdhe

theorem KeysOK.same {a b : MemStore} (h : KeysOK P b) (hs : SameKeys a b) : KeysOK P a :=
  ⟨by rw [hs.2.2]; exact h.privs, by rw [hs.2.1]; exact h.skeys⟩

/-- The store with one more session key. -/
def MemStore.withSKey (st : MemStore) (k : Str) (ke : KeyEntry) (p : Str) : MemStore :=
  { st with skeys := upd st.skeys k (some (ke, p)) }

theorem KeysOK.add (hP : P.Good) {st : MemStore} (h : KeysOK P st) (x : Bytes) (p : Str) (k : Str) :
    KeysOK P (st.withSKey k (initDHKey P x).public p) := by
  refine ⟨h.privs, ?_⟩
  intro h' k' p' he
  simp only [MemStore.withSKey, upd] at he
  split at he
  · simp only [Option.some.injEq, Prod.mk.injEq] at he
    obtain ⟨rfl, -⟩ := he
    exact ⟨by simp [PubOK, initDHKey_public_pub32 P hP], rfl⟩
  · exact h.skeys _ _ _ he

theorem KeysOK.del {st : MemStore} (h : KeysOK P st) (x : Str) :
    KeysOK P (st.delPrivSessionKey x) := by
  unfold MemStore.delPrivSessionKey
  split
  · exact h
  · rename_i ke p he
    refine ⟨h.privs, ?_⟩
    intro h' k' p' he'
    simp only [upd] at he'
    split at he'
    · simp only [Option.some.injEq, Prod.mk.injEq] at he'
      obtain ⟨rfl, -⟩ := he'
      exact h.skeys _ _ _ he
    · exact h.skeys _ _ _ he'

/-- The outcome of session handling: the keys stay usable; without a session state
there is no session. -/
def After (P : Prims) (u : UID) (h : Header) (ss : Option State) (st : MemStore) : Prop :=
  KeysOK P st ∧ (∀ s, ss = some s → PubOK P s.senderSessionPub) ∧
    (ss = none → st.sessions (decSessionKey P u h) = none)

theorem wp_addSessionKey {x : Bytes} {Q : Unit → MemStore → Prop} {st : MemStore}
    (h : Q () (st.withSKey (initDHKey P x).hash (initDHKey P x).public (P.b64 x))) :
    wp P (addSessionKey P (initDHKey P x)) Q st := by
  unfold addSessionKey
  simp only [initDHKey_priv32, orPanic, bind_eq, ret_bind]
  exact wp_ask fun _ _ => h

/-- A session key that has not been deleted comes back as a key pair. -/
theorem wp_getSessionKey {k : Str} {Q : KeyEntry → MemStore → Prop} {st : MemStore}
    (hk : ∀ ke p, st.skeys k = some (ke, p) → PubOK P ke ∧ ke.func = .ecdhe)
    (h : ∀ ke, PubOK P ke → ((∀ ke p, st.skeys k = some (ke, p) → p ≠ []) → PairOK P ke) →
      Q ke st) : wp P (getSessionKey P k) Q st := by
  unfold getSessionKey
  refine wp_bind (wp_ask fun x hx => ?_)
  simp only [MemStore.handle, MemStore.getSessionKey] at hx ⊢
  split at hx
  · cases hx
  rename_i y he
  cases hx
  obtain ⟨ke, p⟩ := x
  obtain ⟨k1, k2⟩ := hk _ _ he
  dsimp only
  split
  · rename_i hp
    exact wp_ret (h _ k1 fun hne => absurd hp (hne _ _ he))
  · split
    · exact wp_fail
    · split
      · refine wp_ret (h _ k1 fun _ => ⟨k1, ?_⟩)
        simp [KeyEntry.priv32, k2]
      · exact wp_fail

theorem wp_setNext (hP : P.Good) {s : State} {k : Str} {x : Bytes} {Q : State × KeyEntry → MemStore → Prop}
    {st : MemStore}
    (h : ∀ st', KeysOK P st → KeysOK P st' → st'.sessions = st.sessions →
      Q ({ s with nextSenderSessionPub := some (initDHKey P x) }, initDHKey P x) st')
    (hk : KeysOK P st) : wp P (setNextSenderSessionPub P s k x) Q st := by
  unfold setNextSenderSessionPub
  simp only [bind_eq]
  refine wp_bind (wp_addSessionKey ?_)
  refine wp_bind (wp_ask fun _ _ => wp_ret (h _ hk ?_ rfl))
  have := hk.add hP x (P.b64 x) (initDHKey P x).hash
  exact ⟨this.privs, this.skeys⟩

variable (hP : P.Good) {a : DecArgs} {n : UInt64} {hp : Bytes} {u : UID} {h : Header}
  {stateKey : Str} {st : MemStore}
include hP

theorem wp_decUnknown (hu : PairOK P u.pubKey) (hh : HeaderOK P h) {ss : Option State}
    (hs : ∀ s, ss = some s → PubOK P s.senderSessionPub)
    (hpr : ∀ h k, st.privs h = some k → PairOK P k) (hk : KeysOK P st)
    (hno : st.sessions (decSessionKey P u h) = none) :
    wp P (decUnknown P a n hp u h stateKey (decSessionKey P u h) ss) (After P u h) st := by
  unfold decUnknown
  simp only [bind_eq]
  refine wp_bind (wp_try ?_)
  simp only [MemStore.handle, MemStore.getPrivateKeyEntry]
  split
  · exact wp_ret ⟨hk, hs, fun _ => hno⟩
  · exact wp_fail
  rename_i ki hki
  have hkp : PairOK P ki := by
    split at hki
    · cases hki
    · rename_i ke hke
      cases hki
      exact hpr _ _ hke
  refine wp_bind (wp_rkaRecipient hh.sess hh.ident hkp hu fun st1 hs1 => ?_)
  have hk1 := hk.same hs1
  refine wp_ite (fun _ => ?_) fun hst => ?_
  · refine wp_bind (wp_addSessionKey ?_)
    have hk2 := hk1.add hP a.fresh (P.b64 a.fresh) (initDHKey P a.fresh).hash
    generalize st1.withSKey _ _ _ = st2 at hk2 ⊢
    have fin : ∀ st3, KeysOK P st3 → wp P ((Prog.ask (.setState stateKey
        ⟨0, 0, 0, h.senderSessionPub, ki, some (initDHKey P a.fresh), h.nextSenderSessionPub,
          h.nymAddress, false⟩)).bind fun _ => .ret (some
        ⟨0, 0, 0, h.senderSessionPub, ki, some (initDHKey P a.fresh), h.nextSenderSessionPub,
          h.nymAddress, false⟩)) (After P u h) st3 := by
      intro st3 hk3
      refine wp_bind (wp_ask fun _ _ => wp_ret ⟨⟨hk3.privs, hk3.skeys⟩, ?_, fun hc => by cases hc⟩)
      intro s hs
      cases hs
      exact hkp.1
    cases hn : h.nextSenderSessionPub with
    | none =>
      rw [hn] at fin
      exact fin _ hk2
    | some k =>
      rw [hn] at fin
      refine wp_bind (wp_ask fun _ _ => ?_)
      refine wp_bind (wp_rkaSender (initDHKey_pair P hP _) hu (hh.next k hn) hh.ident
        fun st3 hs3 => ?_)
      exact fin _ (hk2.same hs3)
  · refine wp_ret ⟨hk1, hs, fun hc => ?_⟩
    subst hc
    exact absurd rfl hst

theorem wp_decKnown (hu : PairOK P u.pubKey) (hh : HeaderOK P h) {s : State}
    (hs : PubOK P s.senderSessionPub)
    (hn : ∀ sn, s.nextSenderSessionPub = some sn → PubOK P sn ∧
      ∀ k p, st.skeys sn.hash = some (k, p) → p ≠ [])
    (hk : KeysOK P st) :
    wp P (decKnown P a n hp u h stateKey (decSessionKey P u h) (some s)) (After P u h) st := by
  unfold decKnown
  simp only [bind_eq, orPanic, ret_bind]
  have fin : ∀ (s' : State) st', KeysOK P st' → PubOK P s'.senderSessionPub →
      wp P ((Prog.ask (.delSKey h.recipientTempHash)).bind fun _ => .ret (some s')) (After P u h)
        st' := by
    intro s' st' hk' hs'
    refine wp_bind (wp_ask fun _ _ => wp_ret ⟨hk'.del _, ?_, fun hc => by cases hc⟩)
    intro s2 he
    cases he
    exact hs'
  split
  · split
    · exact fin _ _ hk hs
    · rename_i hn' hhn
      split
      · refine wp_bind (wp_setNext hP (fun st1 _ hk1 _ => ?_) hk)
        dsimp only
        refine wp_bind (wp_ask fun _ _ => ?_)
        refine wp_bind (wp_rkaSender (initDHKey_pair P hP _) hu (hh.next _ hhn) hh.ident
          fun st3 hs3 => ?_)
        have hk3 : KeysOK P st3 := hk1.same hs3
        split
        · exact wp_bind (wp_ask fun _ _ => fin _ _ ⟨hk3.privs, hk3.skeys⟩ hs)
        · exact fin _ _ hk3 hs
      · rename_i sn hsn
        split
        · obtain ⟨n1, n2⟩ := hn sn hsn
          refine wp_bind (wp_getSessionKey (fun ke p he => hk.skeys _ _ _ he) fun ke _ hke => ?_)
          have hke' := hke n2
          refine wp_bind (wp_ask fun _ _ => ?_)
          refine wp_bind (wp_rkaRecipient (hh.next _ hhn) hh.ident hke' hu fun st3 hs3 => ?_)
          have hk3 : KeysOK P st3 := hk.same hs3
          exact wp_bind (wp_ask fun _ _ => fin _ _ ⟨hk3.privs, hk3.skeys⟩ hke'.1)
        · exact fin _ _ hk hs
  · split
    · rename_i sn sr hsn hsr
      split
      · exact wp_bind (wp_ask fun _ _ => fin _ _ ⟨hk.privs, hk.skeys⟩ (hn sn hsn).1)
      · exact fin _ _ hk hs
    · exact fin _ _ hk hs

theorem wp_decSession (hmem : u ∈ a.identities) (hu : PairOK P u.pubKey) (hv : h.verify P = true)
    (hst : StoreOK P a.identities st) :
    wp P (decSession P a n hp u h) (After P u h) st := by
  have hh := headerOK hv
  have hk : KeysOK P st := ⟨fun h k he => (hst.privs h k he).1, hst.skeys⟩
  obtain ⟨rp, e1⟩ := Option.isSome_iff_exists.mp hu.1
  obtain ⟨sp, e2⟩ := Option.isSome_iff_exists.mp hh.ident
  unfold decSession
  simp only [bind_eq, e1, e2, orPanic, ret_bind]
  refine wp_bind (wp_ask fun ss hss => ?_)
  simp only [MemStore.handle, Except.ok.injEq] at hss ⊢
  refine wp_bind (wp_try ?_)
  refine wp_ite (fun hkn => ?_) fun hkn => ?_
  all_goals simp only [MemStore.handle, MemStore.hasSession] at hkn ⊢
  · have := hst.state u hmem h rp sp e1 hv e2 hkn
    obtain ⟨s, hs⟩ := Option.isSome_iff_exists.mp this
    rw [hss] at hs
    subst hs
    exact wp_decKnown hP hu hh (hst.cur _ _ hss) (fun sn he => hst.next _ _ _ hss he) hk
  · refine wp_decUnknown hP hu hh ?_ hst.privs hk (by simpa using hkn)
    intro s hs
    subst hs
    exact hst.cur _ _ hss

omit hP in
theorem wp_decExtend (hh : HeaderOK P h) {ss : Option State} (ha : After P u h ss st) :
    wp P (decExtend P n u h (decSessionKey P u h) ss) (fun _ _ => True) st := by
  obtain ⟨hk, h1, h2⟩ := ha
  obtain ⟨sp, e2⟩ := Option.isSome_iff_exists.mp hh.sess
  unfold decExtend
  simp only [bind_eq]
  refine wp_bind (wp_ask fun x hx => ?_)
  simp only [MemStore.handle, MemStore.numMessageKeys] at hx ⊢
  split at hx
  · cases hx
  rename_i t ht
  cases hss : ss with
  | none => rw [h2 hss] at ht; cases ht
  | some s =>
    have hs := h1 s hss
    obtain ⟨own, e3⟩ := Option.isSome_iff_exists.mp hs
    split
    · refine wp_bind (wp_ask fun _ _ => ?_)
      simp only [MemStore.handle]
      refine wp_bind (wp_failIf fun _ => ?_)
      simp only [orPanic, ret_bind, e2, e3]
      have fin : ∀ c r st', wp P (generateMessageKeys P h.senderIdentity u.identity
          h.senderIdentityPub.hash u.pubKey.hash c true sp r (keysNeeded h.senderMessageCount n))
          (fun _ _ => True) st' := fun _ _ _ => wp_generate fun _ _ => trivial
      split
      · exact fin _ _ _
      · refine wp_bind (wp_try ?_)
        simp only [MemStore.handle, MemStore.getPrivateKeyEntry]
        split
        · rename_i ki hki
          split at hki
          · cases hki
          · rename_i ke hke
            cases hki
            obtain ⟨y, hy⟩ := Option.isSome_iff_exists.mp (hk.privs _ _ hke)
            rw [hy]
            exact fin _ _ _
        · refine wp_bind (wp_getSessionKey (fun ke p he => hk.skeys _ _ _ he) fun ke hke _ => ?_)
          obtain ⟨y, hy⟩ := Option.isSome_iff_exists.mp hke
          rw [hy]
          exact fin _ _ _
        · exact wp_fail
    · exact wp_ret trivial

omit hP in
theorem wp_decBody {mk : Bytes} {suid : Str} {r : Bytes}
    (hu : ∀ uid, P.parseUID suid = some uid → PubOK P uid.sigKey) :
    wp P (decBody P mk suid r) (fun _ _ => True) st := by
  unfold decBody
  simp only [bind_eq]
  refine wp_bind (wp_readPacket fun x => ?_)
  refine wp_bind (wp_failIf fun _ => ?_)
  refine wp_bind (wp_readPacket fun y => ?_)
  refine wp_bind (wp_wire (Wire.readInner_total _) fun z _ => ?_)
  refine wp_bind (wp_failIf fun _ => ?_)
  refine wp_bind (wp_try ?_)
  refine wp_bind (wp_readPacket fun w => ?_)
  refine wp_bind (wp_wire (Wire.readInner_total _) fun v _ => ?_)
  split
  all_goals
    try refine wp_bind (wp_failIf fun _ => ?_)
  · refine wp_bind (wp_failIf fun _ => ?_)
    split
    · exact wp_fail
    · rename_i uid he
      obtain ⟨pk, hpk⟩ := Option.isSome_iff_exists.mp (hu _ he)
      simp only [hpk, orPanic, ret_bind]
      refine wp_bind (wp_failIf fun _ => ?_)
      refine wp_bind (wp_readPacket fun q => ?_)
      exact wp_bind (wp_failIf fun _ => wp_ret trivial)
  · split
    · exact wp_fail
    · refine wp_bind (wp_ret ?_)
      refine wp_bind (wp_readPacket fun q => ?_)
      exact wp_bind (wp_failIf fun _ => wp_ret trivial)

omit hP in
/-- The header Decrypt continues with is verified and was opened with the key of
one of the identities; reading it does not panic. -/
theorem wp_decHead (hids : ∀ u ∈ a.identities, PairOK P u.pubKey) :
    wp P (decHead P a) (fun x st' => st' = st ∧ x.2.1 ∈ a.identities ∧ x.2.2.1.verify P = true)
      st := by
  unfold decHead readHeader
  simp only [bind_eq]
  refine wp_bind (wp_wire (Wire.readPre_total _) fun ph _ => ?_)
  refine wp_bind (wp_failIf fun _ => ?_)
  refine wp_bind (wp_readPacket fun p1 => ?_)
  refine wp_bind ?_
  refine wp_bind (wp_wire Wire.readN_total fun x1 _ => ?_)
  refine wp_bind (wp_wire Wire.read16_total fun x2 _ => ?_)
  refine wp_bind (wp_wire Wire.readN_total fun x3 _ => ?_)
  refine wp_bind (wp_mono (Q := fun x st' => st' = st ∧ x.1 ∈ a.identities) ?_ ?_)
  · generalize a.identities = ids at hids ⊢
    induction ids with
    | nil => exact wp_fail
    | cons u us ih =>
      unfold tryOpen
      obtain ⟨y, hy⟩ := Option.isSome_iff_exists.mp (hids u (by simp)).2
      simp only [hy, orPanic, bind_eq, ret_bind]
      split
      · exact wp_ret ⟨rfl, by simp⟩
      · exact wp_mono (ih fun u hu => hids u (by simp [hu])) fun _ _ hx =>
          ⟨hx.1, by simp [hx.2]⟩
  · intro x st' ⟨hst, hm⟩
    split
    · exact wp_fail
    · refine wp_bind (wp_failIf fun hv => ?_)
      exact wp_ret (wp_ret ⟨hst, hm, by simpa using hv⟩)

/-- C60, what holds: if the recipient's own key pairs are complete, every UID
message that parses has a usable signature key, the keys in the store are usable,
an announced session key has not been deleted and no session is without session
state, then Decrypt does not panic, for any bytes.  Missing: the last condition is
not preserved by Decrypt (`C60_negation_two_messages`), and UID messages are not
checked (`C60_negation_bad_signature_key`). -/
theorem C60_no_panic_partial (hids : ∀ u ∈ a.identities, PairOK P u.pubKey)
    (huid : ∀ s uid, P.parseUID s = some uid → PubOK P uid.sigKey)
    (hst : StoreOK P a.identities st) :
    ((decrypt P a).run (MemStore.handle P) st).1 ≠ .panic := by
  have key : wp P (decrypt P a) (fun _ _ => True) st := by
    unfold decrypt
    simp only [bind_eq]
    refine wp_bind (wp_mono (wp_decHead hids) ?_)
    intro ⟨hp, u, h, r⟩ st' ⟨hs, hm, hv⟩
    subst hs
    dsimp only at hm hv ⊢
    refine wp_bind (wp_mono (wp_decSession hP hm (hids u hm) hv hst) ?_)
    intro ss st1 ha
    refine wp_bind (wp_mono (wp_decExtend (headerOK hv) ha) ?_)
    intro _ st2 _
    refine wp_bind (wp_ask fun mk _ => ?_)
    simp only [MemStore.handle]
    refine wp_bind (wp_mono (wp_decBody fun uid he => huid _ _ he) ?_)
    intro _ st3 _
    exact wp_bind (wp_ask fun _ _ => wp_ret trivial)
  intro hc
  unfold wp at key
  generalize (decrypt P a).run (MemStore.handle P) st = x at hc key
  obtain ⟨x1, x2⟩ := x
  subst hc
  exact key

end

/-- The hypotheses can be met by a store with sessions, states and keys, and with a
message that Decrypt accepts. -/
def Toy.storeN : MemStore := { Toy.storeT with states := fun _ => some Toy.stateT }

example : (∀ u ∈ Toy.argsT.identities, PairOK Toy.PT u.pubKey) ∧
    (∀ s uid, Toy.PT.parseUID s = some uid → PubOK Toy.PT uid.sigKey) ∧
    StoreOK Toy.PT Toy.argsT.identities Toy.storeN ∧
    ((decrypt Toy.PT Toy.argsT).run (MemStore.handle Toy.PT) Toy.storeN).1 =
      .ok (Toy.headerT.senderIdentity,
        Toy.PT.b64 (Toy.PT.sign Toy.sigPub (Toy.PT.sha512 Toy.contentT))) := by
  refine ⟨?_, ?_, ⟨?_, ?_, ?_, ?_, ?_⟩, by decide +kernel⟩
  · intro u hu
    simp only [Toy.argsT, List.mem_singleton] at hu
    subst hu
    exact initDHKey_pair Toy.PT Toy.PT_good [1]
  · intro s uid h
    cases h
    show (Toy.uidT.sigKey.pub32 Toy.PT).isSome = true
    decide +kernel
  · intro h k hk; cases hk
  · intro h k p hk; cases hk
  · intro key s hs
    cases hs
    exact (initDHKey_pair Toy.PT Toy.PT_good [4]).1
  · intro key s sn hs hn
    cases hs
    cases hn
  · intros; rfl

end Verif.Msg

/-
C141: conversations of users whose sessions are in the key database, with a new process
(and so a new connection to the database) for every message.
-/
import Verif.Keydb.Store
import Verif.Msg.ConcreteToy
set_option autoImplicit false

namespace Verif.Keydb
open Verif.Msg Verif.Sql Prog
open Wire (newOuter newPre readFirst)

/-- One run of `mutecrypt decrypt` on an encoded message: base64 decoding, ReadFirstOuterHeader,
Decrypt (cryptengine/decrypt.go:40-96). -/
def dbOpen (P : Prims) (L : Link) (r : Round) (wire : Str) (B : Store) : Option ((Str × Str) × Store) :=
  match P.unb64 wire with
  | none => none
  | some b =>
    match readFirst b with
    | .ok (_, pre, rest) =>
      match (decrypt P ⟨[L.bob], pre, rest, L.nB, r.fresh⟩).run (Store.handle P) B.connect with
      | (.ok x, B') => some (x, B')
      | _ => none
    | _ => none

/-- One run of `mutecrypt encrypt` (cryptengine/encrypt.go:24-127): the result of Encrypt and the
database afterwards. -/
def dbEncrypt (P : Prims) (L : Link) (r : Round) (A : Store) : Res Err Str × Store :=
  (encrypt P (L.encArgs r) r.rnd).run (Store.handle P) A.connect

/-- One message: `mutecrypt encrypt` at the sender, `mutecrypt decrypt` at the recipient. -/
def dbExchange (P : Prims) (L : Link) (r : Round) (A B : Store) :
    Except Failure ((Bytes × Str × Str) × Store × Store) :=
  match dbEncrypt P L r A with
  | (.ok _, A') =>
    match dbOpen P L r (A'.out.drop A.out.length) B with
    | some ((sender, sig), B') => .ok ((B'.out.drop B.out.length, sender, sig), A', B')
    | none => .error .recipient
  | _ => .error .sender

/-- Messages sent and received in order: what the recipient gets, and the databases afterwards. -/
def dbConversation (P : Prims) (L : Link) : List Round → Store → Store →
    Except Failure (List (Bytes × Str × Str) × Store × Store)
  | [], A, B => .ok ([], A, B)
  | r :: rs, A, B =>
    match dbExchange P L r A B with
    | .error e => .error e
    | .ok (x, A', B') =>
      match dbConversation P L rs A' B' with
      | .error e => .error e
      | .ok (xs, A'', B'') => .ok (x :: xs, A'', B'')

/-- Attempts to send, one after the other: the results, and the database afterwards. -/
def dbAttempts (P : Prims) (L : Link) : List Round → Store → List (Res Err Str) × Store
  | [], A => ([], A)
  | r :: rs, A =>
    let x := dbEncrypt P L r A
    let y := dbAttempts P L rs x.2
    (x.1 :: y.1, y.2)

/-! ### Names are not empty -/

section
variable {P : Prims} (hP : P.Good)
include hP

theorem b64_ne {x : Bytes} (h : x ≠ []) : P.b64 x ≠ [] := by
  intro e
  have h1 := hP.b64_len x
  rw [e] at h1
  have h2 := List.length_pos_iff.mpr h
  simp at h1
  omega

theorem b64_sha_ne (x : Bytes) : P.b64 (P.sha512 x) ≠ [] :=
  b64_ne hP fun e => by have := hP.sha512_len x; rw [e] at this; simp at this

theorem keyHash_ne (x : Bytes) : keyHash P x ≠ [] := b64_sha_ne hP _

theorem messageKey_ne (c p f : Bytes) : messageKey P c p f ≠ [] :=
  b64_ne hP fun e => by have := hP.hmac_len c (sMESSAGE ++ p ++ f); rw [e] at this; simp at this

theorem chainAt_ne {root : Bytes} (h : root.length = 32) (n : Nat) : P.b64 (chainAt P root n) ≠ [] :=
  b64_ne hP fun e => by have := chainAt_len P hP root h n; rw [e] at this; simp at this

theorem keyList_ne (root p f : Bytes) (n : Nat) : ∀ x ∈ keyList P root p f n, x ≠ [] := by
  intro x hx
  unfold keyList at hx
  obtain ⟨i, -, rfl⟩ := List.mem_map.mp hx
  exact messageKey_ne hP _ _ _

end

/-! ### Coverage of the runs -/

section
variable {P : Prims}

theorem Cov.bind' {α β : Type} {p : Prog α} {f : α → Prog β} {ms : MemStore} (h1 : Cov P p ms)
    (h2 : ∀ a ms1, p.run (MemStore.handle P) ms = (.ok a, ms1) → Cov P (f a) ms1) :
    Cov P (p.bind f) ms := by
  induction p generalizing ms with
  | ret x => exact h2 _ _ rfl
  | fail e => trivial
  | panic => trivial
  | call r k ih => exact ⟨h1.1, ih _ h1.2 fun a ms1 h => h2 a ms1 h⟩

theorem Cov.noCallB {α β : Type} {p : Prog α} {f : α → Prog β} {ms : MemStore} (h : NoCall p)
    (h2 : ∀ a, Cov P (f a) ms) : Cov P (p.bind f) ms := by
  cases h
  · exact h2 _
  · trivial
  · trivial

/-- Programs that do nothing but write. -/
inductive Writes {α : Type} : Prog α → Prop where
  | ret (a : α) : Writes (.ret a)
  | fail (e : Err) : Writes (.fail e)
  | panic : Writes .panic
  | write (b : Bytes) {k : Unit → Prog α} (h : Writes (k ())) : Writes (.call (.write b) k)

theorem Writes.bind {α β : Type} {p : Prog α} {f : α → Prog β} (h : Writes p) (hf : ∀ a, Writes (f a)) :
    Writes (p.bind f) := by
  induction h with
  | ret a => exact hf a
  | fail e => exact .fail _
  | panic => exact .panic
  | write b h ih => exact .write b ih

theorem Writes.noCallB {α β : Type} {p : Prog α} {f : α → Prog β} (h : NoCall p) (hf : ∀ a, Writes (f a)) :
    Writes (p.bind f) := by
  cases h
  · exact hf _
  · exact .fail _
  · exact .panic

theorem Writes.cov {α : Type} {p : Prog α} (h : Writes p) (ms : MemStore) : Cov P p ms := by
  induction h generalizing ms with
  | ret a => trivial
  | fail e => trivial
  | panic => trivial
  | write b h ih => exact ⟨trivial, ih _⟩

theorem Writes.sessions {α : Type} {p : Prog α} (h : Writes p) (ms : MemStore) :
    (p.run (MemStore.handle P) ms).2.sessions = ms.sessions := by
  induction h generalizing ms with
  | ret a => rfl
  | fail e => rfl
  | panic => rfl
  | write b h ih =>
    have := ih { ms with out := ms.out ++ b }
    exact this

theorem writes_decBody (mk : Bytes) (su : Str) (r : Bytes) : Writes (decBody P mk su r) := by
  unfold decBody
  simp only [bind_eq]
  repeat' first
    | exact Writes.ret _
    | exact Writes.fail _
    | (refine Writes.noCallB (noCall_readPacket _ _ _ _) fun ⟨_, _⟩ => ?_; simp only)
    | (refine Writes.noCallB (NoCall.failIf _ _) fun _ => ?_)
    | (refine Writes.noCallB (NoCall.wire _) fun ⟨_, _⟩ => ?_; simp only)
    | (refine Writes.noCallB (NoCall.orPanic _) fun _ => ?_)
    | (refine Writes.bind (Writes.write _ (.ret _)) fun _ => ?_)
    | split
    | (refine Writes.bind ?_ fun _ => ?_)

theorem not_ge {k m : Nat} (hk : k < m) (hm : m < 2 ^ 64) {c : UInt64} (hc : c = UInt64.ofNat k) :
    ¬ c ≥ UInt64.ofNat m := by
  subst hc
  intro hge
  have := UInt64.le_iff_toNat_le.mp hge
  rw [ofNat_toNat (show k < 2 ^ 64 by omega), ofNat_toNat hm] at this
  omega

/-- No key has to be generated. -/
theorem encExtend_none {a : EncArgs} {n : UInt64} {ss : State} {key : Str} {A : MemStore} {t : Sess} {k : Nat}
    (ht : A.sessions key = some t) (hc : ss.senderMessageCount = UInt64.ofNat k) (hk : k < t.send.length)
    (hl : t.send.length < 2 ^ 64) :
    (encExtend P a n ss key).run (MemStore.handle P) A = (.ok (), A) ∧ Cov P (encExtend P a n ss key) A := by
  have hnum : A.numMessageKeys key = .ok (UInt64.ofNat t.send.length) := by
    unfold MemStore.numMessageKeys; rw [ht]
  unfold encExtend
  simp only [bind_eq]
  constructor
  · rw [run_bind_of_ok (a := UInt64.ofNat t.send.length) (s1 := A) _
      (by rw [run_ask_ok]; simp only [MemStore.handle, hnum])]
    rw [if_neg (not_ge hk hl hc)]
    rfl
  · refine Cov.bind (a := UInt64.ofNat t.send.length) (ms1 := A)
      (by rw [run_ask_ok]; simp only [MemStore.handle, hnum]) (Cov.ask trivial) ?_
    rw [if_neg (not_ge hk hl hc)]
    trivial

theorem decExtend_none {u : UID} {n : UInt64} {h : Header} {ss : Option State} {key : Str} {A : MemStore} {t : Sess}
    {k : Nat} (ht : A.sessions key = some t) (hc : h.senderMessageCount = UInt64.ofNat k) (hk : k < t.send.length)
    (hl : t.send.length < 2 ^ 64) :
    (decExtend P n u h key ss).run (MemStore.handle P) A = (.ok (), A) ∧ Cov P (decExtend P n u h key ss) A := by
  have hnum : A.numMessageKeys key = .ok (UInt64.ofNat t.send.length) := by
    unfold MemStore.numMessageKeys; rw [ht]
  unfold decExtend
  simp only [bind_eq]
  constructor
  · rw [run_bind_of_ok (a := UInt64.ofNat t.send.length) (s1 := A) _
      (by rw [run_ask_ok]; simp only [MemStore.handle, hnum])]
    rw [if_neg (not_ge hk hl hc)]
    rfl
  · refine Cov.bind (a := UInt64.ofNat t.send.length) (ms1 := A)
      (by rw [run_ask_ok]; simp only [MemStore.handle, hnum]) (Cov.ask trivial) ?_
    rw [if_neg (not_ge hk hl hc)]
    trivial

/-- Encrypt, given what session handling does. -/
theorem cov_encrypt (hP : P.Good) {a : EncArgs} {rnd : Rnd} {fp tp : Bytes} {A A1 : MemStore} {ss : State} {nym : Str}
    {t : Sess} {k : Nat} (hf : a.from.pubKey.pub32 P = some fp) (ht : a.to.pubKey.pub32 P = some tp)
    (hs : (encSession P a rnd (effKeys a.numOfKeys) (calcStateKey P fp tp)).run (MemStore.handle P) A =
      (.ok (ss, nym), A1))
    (hc : Cov P (encSession P a rnd (effKeys a.numOfKeys) (calcStateKey P fp tp)) A)
    (hse : A1.sessions (encSessionKey P a ss) = some t) (hk : ss.senderMessageCount = UInt64.ofNat k)
    (hkl : k < t.send.length) (hl : t.send.length < 2 ^ 63) (h0 : ss.senderSessionCount = 0)
    (h1 : ss.maxRecipientCount = 0) : Cov P (encrypt P a rnd) A := by
  obtain ⟨x1, x2⟩ := encExtend_none (P := P) (a := a) (n := effKeys a.numOfKeys) hse hk hkl (by omega)
  unfold encrypt
  simp only [bind_eq, hf, ht, orPanic, ret_bind]
  refine Cov.bind hs hc ?_
  simp only
  refine Cov.noCallB (noCall_newHeader _ _ _) fun h => ?_
  refine Cov.noCallB (noCall_uidPublicKey P _) fun rp => ?_
  refine Cov.noCallB (noCall_headerPacket P _ _ _ _) fun hp => ?_
  refine Cov.bind x1 x2 ?_
  refine Cov.bind' (Cov.ask trivial) fun mk A2 hmk => ?_
  have e2 : A2 = A1 := by
    rw [run_ask_ok] at hmk
    exact (Prod.mk.inj hmk).2.symm
  subst e2
  refine Cov.noCallB (NoCall.failIf _ _) fun _ => ?_
  refine Cov.noCallB (NoCall.failIf _ _) fun _ => ?_
  refine Cov.bind' (Cov.try' trivial) fun _ A3 hw => ?_
  have e3 : A3.sessions = A2.sessions := by
    obtain rfl := (Prod.mk.inj hw).2; rfl
  refine Cov.bind' (Cov.ask ?_) fun _ A4 _ => ?_
  · intro s hs'
    rw [e3] at hs'
    have := hse.symm.trans hs'
    obtain rfl := Option.some.inj this
    rw [hk, ofNat_toNat (show k < 2 ^ 64 by omega)]
    exact hkl
  refine Cov.bind' (Cov.ask ?_) fun _ _ _ => trivial
  refine ⟨b64_sha_ne hP _, ?_, ?_, ?_⟩
  · rw [h0]; decide
  · show (ss.senderMessageCount + 1).toNat < maxInt
    rw [hk, UInt64.toNat_add, ofNat_toNat (show k < 2 ^ 64 by omega)]
    unfold maxInt
    have : (1 : UInt64).toNat = 1 := rfl
    rw [this]; omega
  · rw [h1]; decide

/-- Decrypt, given what session handling does. -/
theorem cov_decrypt {a : DecArgs} {hp : Bytes} {u : UID} {h : Header} {r : Bytes} {B B1 : MemStore} {s : Option State}
    {t : Sess} {k : Nat} (hh : (decHead P a).out = .ok (hp, u, h, r))
    (hs : (decSession P a (effKeys a.numOfKeys) hp u h).run (MemStore.handle P) B = (.ok s, B1))
    (hc : Cov P (decSession P a (effKeys a.numOfKeys) hp u h) B)
    (hse : B1.sessions (decSessionKey P u h) = some t) (hk : h.senderMessageCount = UInt64.ofNat k)
    (hkl : k < t.send.length) (hl : t.send.length < 2 ^ 63) :
    Cov P (decrypt P a) B ∧ ∃ t', ((decrypt P a).run (MemStore.handle P) B).2.sessions (decSessionKey P u h) = some t' ∧
      t'.send.length = t.send.length := by
  obtain ⟨x1, x2⟩ := decExtend_none (P := P) (u := u) (n := effKeys a.numOfKeys) (h := h) (ss := s) hse hk hkl (by omega)
  have hh' : (decHead P a).run (MemStore.handle P) B = (.ok (hp, u, h, r), B) := by rw [(noCall_decHead P a).run, hh]
  let tail : Prog (Str × Str) :=
    (Prog.ask (.getMsgKey (decSessionKey P u h) false h.senderMessageCount)).bind fun mk =>
    (decBody P mk h.senderUID r).bind fun sig =>
    (Prog.ask (.delMsgKey (decSessionKey P u h) false h.senderMessageCount)).bind fun _ =>
    .ret (h.senderIdentity, sig)
  have ct : Cov P tail B1 := by
    refine Cov.bind' (Cov.ask trivial) fun mk B2 hmk => ?_
    have e2 : B2 = B1 := by
      rw [run_ask_ok] at hmk
      exact (Prod.mk.inj hmk).2.symm
    subst e2
    refine Cov.bind' ((writes_decBody _ _ _).cov _) fun sig B3 hb => ?_
    have e3 : B3.sessions = B2.sessions := by
      have := (writes_decBody (P := P) mk h.senderUID r).sessions (P := P) B2
      rw [hb] at this; exact this
    refine Cov.bind' (Cov.ask ?_) fun _ _ _ => trivial
    intro s' hs'
    rw [e3] at hs'
    obtain rfl := Option.some.inj (hse.symm.trans hs')
    rw [hk, ofNat_toNat (show k < 2 ^ 64 by omega)]
    exact hkl
  have hdef : decrypt P a = (decHead P a).bind fun x =>
      (decSession P a (effKeys a.numOfKeys) x.1 x.2.1 x.2.2.1).bind fun ss =>
      (decExtend P (effKeys a.numOfKeys) x.2.1 x.2.2.1 (decSessionKey P x.2.1 x.2.2.1) ss).bind fun _ =>
      (Prog.ask (.getMsgKey (decSessionKey P x.2.1 x.2.2.1) false x.2.2.1.senderMessageCount)).bind fun mk =>
      (decBody P mk x.2.2.1.senderUID x.2.2.2).bind fun sig =>
      (Prog.ask (.delMsgKey (decSessionKey P x.2.1 x.2.2.1) false x.2.2.1.senderMessageCount)).bind fun _ =>
      .ret (x.2.2.1.senderIdentity, sig) := rfl
  rw [hdef]
  constructor
  · refine Cov.bind hh' (Cov.noCall (noCall_decHead P a) _) ?_
    exact Cov.bind hs hc (Cov.bind x1 x2 ct)
  · rw [run_bind_of_ok _ hh']
    simp only
    rw [run_bind_of_ok _ hs, run_bind_of_ok _ x1]
    exact ct.length hse

end

/-! ### Session handling, with coverage -/

section
variable {P : Prims} (hP : P.Good)
include hP

theorem cov_addSKey {ms : MemStore} {x : Bytes} (hx : x ≠ []) (hn : ms.skeys (keyHash P x) = none) :
    Cov P (addSessionKey P (initDHKey P x)) ms := by
  unfold addSessionKey
  simp only [bind_eq, initDHKey_priv32, orPanic, ret_bind]
  exact Cov.ask ⟨keyHash_ne hP x, b64_ne hP hx, hn⟩

/-- The state a sender starts with. -/
def startState (P : Prims) (L : Link) (s : Bytes) (nym : Str) : State :=
  ⟨0, 0, 0, (initDHKey P L.kPriv).public, initDHKey P s, none, none, nym, true⟩

theorem covers_generate {si ri sh rh : Str} {root : Bytes} (hr : root.length = 32)
    {b : Bool} {sp rp : Bytes} {n : UInt64} (h0 : n ≠ 0) (h32 : n.toNat < 2 ^ 32) {ms : MemStore}
    (hs : ms.sessions (genKey P sh rh b sp rp) = none) :
    Cov P (generateMessageKeys P si ri sh rh root b sp rp n) ms := by
  rw [generate_eq P _ _ _ _ _ _ _ _ n h0]
  refine Cov.ask ⟨?_, b64_sha_ne hP _, chainAt_ne hP hr _, hs, keyList_ne hP _ _ _ _, keyList_ne hP _ _ _ _, ?_⟩
  · unfold genKey calcKey
    split <;> exact b64_sha_ne hP _
  · rw [keyList_length]; unfold maxInt; omega

theorem encSession_first' {L : Link} {uid : UID} (hL : L.OK P uid) (r : Round)
    (hd : AllDifferent [P.dhPub r.rnd.headerPriv, P.dhPub L.aPriv, P.dhPub r.rnd.sessPriv,
      P.dhPub L.bPriv, P.dhPub L.kPriv])
    {A B : MemStore} (hS : L.Start P A B) (hx : r.rnd.sessPriv ≠ [])
    (hfr : A.skeys (keyHash P r.rnd.sessPriv) = none) :
    ∃ A1, (encSession P (L.encArgs r) r.rnd (effKeys L.nA) (L.stateKeyA P)).run (MemStore.handle P) A =
        (.ok (startState P L r.rnd.sessPriv (A.nyms L.bob.identity), A.nyms L.bob.identity), A1) ∧
      A1.skeys = Msg.upd A.skeys (keyHash P r.rnd.sessPriv)
        (some ((initDHKey P r.rnd.sessPriv).public, P.b64 r.rnd.sessPriv)) ∧
      Cov P (encSession P (L.encArgs r) r.rnd (effKeys L.nA) (L.stateKeyA P)) A := by
  have hrl := deriveRootKey_len P hP (P.dh L.aPriv (P.dhPub L.kPriv)) (P.dh r.rnd.sessPriv (P.dhPub L.kPriv))
      (P.dh r.rnd.sessPriv (P.dhPub L.bPriv)) none
  obtain ⟨t, ft, rt⟩ := run_generate_new P L.alice.identity L.bob.identity
    (initDHKey P L.aPriv).hash (initDHKey P L.bPriv).public.hash
    (deriveRootKey P (P.dh L.aPriv (P.dhPub L.kPriv)) (P.dh r.rnd.sessPriv (P.dhPub L.kPriv))
      (P.dh r.rnd.sessPriv (P.dhPub L.bPriv)) none) false (P.dhPub r.rnd.sessPriv)
      (P.dhPub L.kPriv) (effKeys L.nA) (effKeys_ne _)
      (MemStore.handle P (.addSKey (initDHKey P r.rnd.sessPriv).hash
        (initDHKey P r.rnd.sessPriv).public (P.b64 r.rnd.sessPriv)) A).2 (hS.sessA _)
  have ct := covers_generate hP (si := L.alice.identity) (ri := L.bob.identity)
    (sh := (initDHKey P L.aPriv).hash) (rh := (initDHKey P L.bPriv).public.hash) hrl (b := false)
    (sp := P.dhPub r.rnd.sessPriv) (rp := P.dhPub L.kPriv) (effKeys_ne L.nA) (effKeys_lt hL.nA)
    (ms := (MemStore.handle P (.addSKey (initDHKey P r.rnd.sessPriv).hash
        (initDHKey P r.rnd.sessPriv).public (P.b64 r.rnd.sessPriv)) A).2) (hS.sessA _)
  rw [show genKey P (initDHKey P L.aPriv).hash (initDHKey P L.bPriv).public.hash false
    (P.dhPub r.rnd.sessPriv) (P.dhPub L.kPriv) = L.keyA P r.rnd.sessPriv from rfl] at rt
  refine ⟨((MemStore.handle P (.addSKey (initDHKey P r.rnd.sessPriv).hash
        (initDHKey P r.rnd.sessPriv).public (P.b64 r.rnd.sessPriv)) A).2.setSess
        (L.keyA P r.rnd.sessPriv) t).setState (L.stateKeyA P)
        (startState P L r.rnd.sessPriv (A.nyms L.bob.identity)), ?_, rfl, ?_⟩
  · unfold encSession
    simp only [bind_eq]
    rw [if_pos (by show statusOK ≠ _; decide)]
    rw [run_bind_of_ok (a := none) (s1 := A) _ (by
      rw [run_ask_ok]; simp only [MemStore.handle, hS.stA])]
    simp only
    rw [run_bind_of_ok (a := ((initDHKey P L.kPriv).public, A.nyms L.bob.identity)) (s1 := A) _ (by
      rw [run_ask_ok]; simp only [MemStore.handle, MemStore.getPublicKeyEntry, Link.encArgs, hS.pub])]
    simp only [addSessionKey, bind_eq, initDHKey_priv32, orPanic, ret_bind]
    rw [run_bind_of_ok (a := ()) _ (by rw [run_ask_ok]; rfl)]
    simp only [Link.encArgs, hL.a, hL.b]
    rw [rkaSender_eq P hP _ _ _ r.rnd.sessPriv L.aPriv L.kPriv L.bPriv _ _
      (initDHKey_public_pub32 P hP _) (initDHKey_public_pub32 P hP _) none _ hd]
    refine (run_bind_of_ok _ rt).trans ?_
    rw [run_bind_of_ok (a := ()) _ (by rw [run_ask_ok]; rfl)]
    rfl
  · unfold encSession
    simp only [bind_eq]
    rw [if_pos (by show statusOK ≠ _; decide)]
    refine Cov.bind (a := none) (ms1 := A) (by
      rw [run_ask_ok]; simp only [MemStore.handle, hS.stA]) (Cov.ask (b64_sha_ne hP _)) ?_
    simp only
    refine Cov.bind (a := ((initDHKey P L.kPriv).public, A.nyms L.bob.identity)) (ms1 := A) (by
      rw [run_ask_ok]; simp only [MemStore.handle, MemStore.getPublicKeyEntry, Link.encArgs, hS.pub])
      (Cov.ask trivial) ?_
    simp only
    refine Cov.bind (a := ()) (ms1 := (MemStore.handle P (.addSKey (initDHKey P r.rnd.sessPriv).hash
        (initDHKey P r.rnd.sessPriv).public (P.b64 r.rnd.sessPriv)) A).2) ?_ (cov_addSKey hP hx hfr) ?_
    · simp only [addSessionKey, bind_eq, initDHKey_priv32, orPanic, ret_bind]
      rw [run_ask_ok]; rfl
    simp only [Link.encArgs, hL.a, hL.b]
    rw [rkaSender_eq P hP _ _ _ r.rnd.sessPriv L.aPriv L.kPriv L.bPriv _ _
      (initDHKey_public_pub32 P hP _) (initDHKey_public_pub32 P hP _) none _ hd]
    refine Cov.bind rt ct ?_
    exact Cov.bind' (Cov.ask ⟨b64_sha_ne hP _, show (0 : UInt64).toNat < _ by decide,
      show (0 : UInt64).toNat < _ by decide, show (0 : UInt64).toNat < _ by decide⟩) fun _ _ _ => trivial

theorem encSession_later' {L : Link} (r : Round) {A : MemStore} {ss : State}
    (hst : A.states (L.stateKeyA P) = some ss) (h0 : ss.senderSessionCount = 0) (h1 : ss.maxRecipientCount = 0)
    (h2 : ss.senderMessageCount.toNat < 2 ^ 63) (hx : r.rnd.nextPriv ≠ [])
    (hfr : ss.nextSenderSessionPub = none → A.skeys (keyHash P r.rnd.nextPriv) = none) :
    ∃ ss' A1, (encSession P (L.encArgs r) r.rnd (effKeys L.nA) (L.stateKeyA P)).run (MemStore.handle P) A =
        (.ok (ss', ss.nymAddress), A1) ∧
      Cov P (encSession P (L.encArgs r) r.rnd (effKeys L.nA) (L.stateKeyA P)) A ∧
      A1.sessions = A.sessions ∧ (ss' = ss ∧ A1.skeys = A.skeys ∨
        ss' = { ss with nextSenderSessionPub := some (initDHKey P r.rnd.nextPriv) }) := by
  unfold encSession
  simp only [bind_eq]
  rw [if_pos (by show statusOK ≠ _; decide)]
  have hrun : (Prog.ask (.getState (L.stateKeyA P))).run (MemStore.handle P) A = (.ok (some ss), A) := by
    rw [run_ask_ok]; simp only [MemStore.handle, hst]
  rw [run_bind_of_ok _ hrun]
  simp only
  rw [if_pos (by show statusOK ≠ _; decide)]
  by_cases hn : (ss.nextSenderSessionPub.isNone && r.rnd.newSession) = true
  · rw [if_pos hn]
    let ss' : State := { ss with nextSenderSessionPub := some (initDHKey P r.rnd.nextPriv) }
    let A2 := (MemStore.handle P (.addSKey (initDHKey P r.rnd.nextPriv).hash
        (initDHKey P r.rnd.nextPriv).public (P.b64 r.rnd.nextPriv)) A).2
    have hset : (setNextSenderSessionPub P ss (L.stateKeyA P) r.rnd.nextPriv).run (MemStore.handle P) A =
        (.ok (ss', initDHKey P r.rnd.nextPriv), (MemStore.handle P (.setState (L.stateKeyA P) ss') A2).2) := by
      simp only [setNextSenderSessionPub, addSessionKey, bind_eq, initDHKey_priv32, orPanic, ret_bind]
      rw [run_bind_of_ok (a := ()) _ (by rw [run_ask_ok]; rfl)]
      rw [run_bind_of_ok (a := ()) _ (by rw [run_ask_ok]; rfl)]
      rfl
    refine ⟨ss', (MemStore.handle P (.setState (L.stateKeyA P) ss') A2).2, ?_, ?_, rfl, .inr rfl⟩
    · rw [run_bind_of_ok _ hset]; rfl
    · refine Cov.bind hrun (Cov.ask (b64_sha_ne hP _)) ?_
      simp only
      rw [if_pos (by show statusOK ≠ _; decide), if_pos hn]
      refine Cov.bind hset ?_ trivial
      simp only [setNextSenderSessionPub, bind_eq]
      have hnone : ss.nextSenderSessionPub = none := by
        cases hq : ss.nextSenderSessionPub with
        | none => rfl
        | some x => rw [hq] at hn; simp at hn
      refine Cov.bind' (cov_addSKey hP hx (hfr hnone)) fun _ A3 _ => ?_
      refine Cov.bind' (Cov.ask ⟨b64_sha_ne hP _, ?_, ?_, ?_⟩) fun _ _ _ => trivial
      · show ss.senderSessionCount.toNat < _; rw [h0]; decide
      · exact h2
      · show ss.maxRecipientCount.toNat < _; rw [h1]; decide
  · rw [if_neg hn]
    refine ⟨ss, A, rfl, ?_, rfl, .inl ⟨rfl, rfl⟩⟩
    refine Cov.bind hrun (Cov.ask (b64_sha_ne hP _)) ?_
    simp only
    rw [if_pos (by show statusOK ≠ _; decide), if_neg hn]
    trivial

theorem cov_decSession_first {L : Link} {uid : UID} (hL : L.OK P uid) (a : DecArgs) (hp : Bytes)
    {h : Header} {s : Bytes}
    (h3 : h.senderSessionPub = (initDHKey P s).public)
    (h4 : h.senderIdentityPub = (initDHKey P L.aPriv).public)
    (h5 : h.recipientTempHash = keyHash P L.kPriv)
    (h8 : h.nextSenderSessionPub = none)
    (hd : AllDifferent [hp, P.dhPub L.aPriv, P.dhPub s, P.dhPub L.bPriv, P.dhPub L.kPriv])
    {A B : MemStore} (hS : L.Start P A B) (hx : a.fresh ≠ []) (hfr : B.skeys (keyHash P a.fresh) = none) :
    Cov P (decSession P a (effKeys L.nB) hp L.bob h) B := by
  have hkey : decSessionKey P L.bob h = L.keyB P s := by
    simp only [decSessionKey, Link.keyB, hL.b, h3, h4, h5]; rfl
  have hrl := deriveRootKey_len P hP (P.dh L.aPriv (P.dhPub L.kPriv)) (P.dh s (P.dhPub L.kPriv))
      (P.dh s (P.dhPub L.bPriv)) none
  obtain ⟨t, ft, rt⟩ := run_generate_new P h.senderIdentity L.bob.identity
    (initDHKey P L.aPriv).public.hash (initDHKey P L.bPriv).hash
    (deriveRootKey P (P.dh L.aPriv (P.dhPub L.kPriv)) (P.dh s (P.dhPub L.kPriv))
      (P.dh s (P.dhPub L.bPriv)) none) true (P.dhPub s) (P.dhPub L.kPriv) (effKeys L.nB)
    (effKeys_ne _) B (hS.sessB _)
  have ct := covers_generate hP (si := h.senderIdentity) (ri := L.bob.identity)
    (sh := (initDHKey P L.aPriv).public.hash) (rh := (initDHKey P L.bPriv).hash) hrl (b := true)
    (sp := P.dhPub s) (rp := P.dhPub L.kPriv) (effKeys_ne L.nB) (effKeys_lt hL.nB) (ms := B) (hS.sessB _)
  unfold decSession
  simp only [bind_eq, hL.b, h4, initDHKey_pub32 P hP, initDHKey_public_pub32 P hP, orPanic, ret_bind]
  refine Cov.bind (a := none) (ms1 := B) (by
    rw [run_ask_ok]; simp only [MemStore.handle]; rw [show calcStateKey P (P.dhPub L.bPriv)
      (P.dhPub L.aPriv) = L.stateKeyB P from rfl, hS.stB]) (Cov.ask (b64_sha_ne hP _)) ?_
  refine Cov.bind (a := false) (ms1 := B) (by
    rw [run_try', hkey]; simp only [MemStore.handle, MemStore.hasSession, hS.sessB,
      Option.isSome_none]) (Cov.try' trivial) ?_
  rw [if_neg (by simp)]
  unfold decUnknown
  simp only [bind_eq]
  refine Cov.bind (a := .ok (initDHKey P L.kPriv)) (ms1 := B) (by
    rw [run_try', h5]; simp only [MemStore.handle, MemStore.getPrivateKeyEntry, hS.priv]) (Cov.try' trivial) ?_
  simp only [if_true, h8, hL.b]
  rw [h4, h3, rkaRecipient_eq P hP hp _ _ s L.aPriv L.kPriv L.bPriv _ _ (initDHKey_public_pub32 P hP _)
    (initDHKey_public_pub32 P hP _) none _ hd]
  refine Cov.bind rt ct ?_
  refine Cov.bind' (cov_addSKey hP hx hfr) fun _ _ _ => ?_
  rw [ret_bind]
  exact Cov.bind' (Cov.ask ⟨b64_sha_ne hP _, show (0 : UInt64).toNat < _ by decide,
      show (0 : UInt64).toNat < _ by decide, show (0 : UInt64).toNat < _ by decide⟩) fun _ _ _ => trivial

theorem cov_decSession_later {L : Link} {uid : UID} (hL : L.OK P uid) (a : DecArgs) (hp : Bytes)
    {h : Header} {s : Bytes}
    (h3 : h.senderSessionPub = (initDHKey P s).public)
    (h4 : h.senderIdentityPub = (initDHKey P L.aPriv).public)
    (h5 : h.recipientTempHash = keyHash P L.kPriv)
    (h7 : h.nextRecipientSessionPubSeen = none)
    {B : MemStore} {sb : State} {t : Sess}
    (hst : B.states (L.stateKeyB P) = some sb) (hsb : BState P L s sb)
    (hse : B.sessions (L.keyB P s) = some t) :
    Cov P (decSession P a (effKeys L.nB) hp L.bob h) B := by
  have hkey : decSessionKey P L.bob h = L.keyB P s := by
    simp only [decSessionKey, Link.keyB, hL.b, h3, h4, h5]; rfl
  unfold decSession
  simp only [bind_eq, hL.b, h4, initDHKey_pub32 P hP, initDHKey_public_pub32 P hP, orPanic, ret_bind]
  refine Cov.bind (a := some sb) (ms1 := B) (by
    rw [run_ask_ok]; simp only [MemStore.handle]; rw [show calcStateKey P (P.dhPub L.bPriv)
      (P.dhPub L.aPriv) = L.stateKeyB P from rfl, hst]) (Cov.ask (b64_sha_ne hP _)) ?_
  refine Cov.bind (a := true) (ms1 := B) (by
    rw [run_try', hkey]; simp only [MemStore.handle, MemStore.hasSession, hse, Option.isSome_some])
    (Cov.try' trivial) ?_
  rw [if_pos rfl]
  unfold decKnown
  simp only [bind_eq, orPanic, ret_bind]
  rw [if_pos (by rw [h5, hsb.own, h3, hsb.peer]; exact ⟨rfl, rfl⟩)]
  obtain ⟨sn, hsn⟩ := hsb.next
  have fin : Cov P ((Prog.ask (.delSKey h.recipientTempHash)).bind fun _ => Prog.ret (some sb)) B :=
    Cov.bind' (Cov.ask (by rw [h5]; exact keyHash_ne hP _)) fun _ _ _ => trivial
  split
  · exact fin
  · rw [hsn]
    simp only [h7, Option.any_none, Bool.false_eq_true, if_false]
    exact fin

/-! ### One message -/

omit hP in
theorem del_frame {ms ms' : MemStore} {key : Str} {b : Bool} {i : UInt64} {t : Sess}
    (ht : ms.sessions key = some t) (h : ms.delMessageKey key b i = (.ok (), ms')) :
    ms'.skeys = ms.skeys ∧ ms'.out = ms.out ∧
      ∃ t', ms'.sessions key = some t' ∧ t'.send.length = t.send.length := by
  unfold MemStore.delMessageKey at h
  rw [ht] at h
  simp only at h
  split at h
  · simp at h
  · obtain rfl := (Prod.mk.inj h).2
    refine ⟨rfl, rfl, _, upd_same _ _ _, ?_⟩
    split <;> simp

/-- What a successful Encrypt leaves behind. -/
theorem encrypt_wire {L : Link} {uid : UID} (hL : L.OK P uid) {r : Round} (hr : r.OK P uid)
    {s : Bytes} {k : Nat} {A A1 A' : MemStore} {ss : State} {nym nym' : Str} {t : Sess}
    (hA : (encSession P (L.encArgs r) r.rnd (effKeys L.nA) (L.stateKeyA P)).run
        (MemStore.handle P) A = (.ok (ss, nym), A1))
    (hss : AState P L s k ss) (ht : A1.sessions (L.keyA P s) = some t) (hk : k < t.send.length)
    (hl : t.send.length < 2 ^ 63)
    (hrun : (encrypt P (L.encArgs r) r.rnd).run (MemStore.handle P) A = (.ok nym', A')) :
    ∃ mk t', A'.out = A.out ++ P.b64 (messageBytes P r.rnd (mkHeader (L.encArgs r) r.rnd ss)
          (P.dhPub L.bPriv) mk r.sigKey r.content) ∧
      (P.marshal (mkHeader (L.encArgs r) r.rnd ss)).length = 7152 ∧
      A'.states (L.stateKeyA P) = some { ss with senderMessageCount := ss.senderMessageCount + 1 } ∧
      A'.skeys = A1.skeys ∧ A'.sessions (L.keyA P s) = some t' ∧ t'.send.length = t.send.length := by
  obtain ⟨fp, tp, ss', rp, A1', A2, A3, mk, e1, e2, e3, e4, e5, e6, e7, e8, e9, rfl⟩ :=
    encrypt_ok hP hr.rnd rfl hrun
  have h1 : fp = P.dhPub L.aPriv := by
    have : (L.encArgs r).from.pubKey = initDHKey P L.aPriv := hL.a
    rw [this, initDHKey_pub32 P hP] at e1; exact (Option.some.inj e1).symm
  have h2 : tp = P.dhPub L.bPriv := by
    have : (L.encArgs r).to.pubKey = (initDHKey P L.bPriv).public := by
      simp only [Link.encArgs, hL.b]
    rw [this, initDHKey_public_pub32 P hP] at e2; exact (Option.some.inj e2).symm
  have h3 : rp = P.dhPub L.bPriv := by
    have : (L.encArgs r).to.pubKey = (initDHKey P L.bPriv).public := by
      simp only [Link.encArgs, hL.b]
    rw [this] at e3
    simp only [initDHKey, KeyEntry.public, hP.unb64_b64] at e3
    exact (Option.some.inj e3).symm
  subst h1 h2 h3
  have e4' : (encSession P (L.encArgs r) r.rnd (effKeys L.nA) (L.stateKeyA P)).run
    (MemStore.handle P) A = (.ok (ss', nym'), A1') := e4
  rw [hA] at e4'
  simp only [Prod.mk.injEq, Res.ok.injEq] at e4'
  obtain ⟨⟨rfl, rfl⟩, rfl⟩ := e4'
  have hkeyA : encSessionKey P (L.encArgs r) ss = L.keyA P s := by
    simp only [encSessionKey, Link.encArgs, hL.a, hL.b, hss.own, hss.hash]; rfl
  rw [hkeyA] at e6 e9
  have f1 := (encExtend_none (P := P) (a := L.encArgs r) (n := effKeys L.nA) ht hss.count hk (by omega)).1
  have e6' : (encExtend P (L.encArgs r) (effKeys L.nA) ss (L.keyA P s)).run
      (MemStore.handle P) A1 = (.ok (), A2) := e6
  rw [f1] at e6'
  obtain rfl := (Prod.mk.inj e6').2
  obtain ⟨g1, g2, t', g3, g4⟩ := del_frame (t := t) (by exact ht) e9
  have oA1 : A1.out = A.out := by
    have := run_out P (quiet_noWrite (quiet_encSession P (L.encArgs r) r.rnd (effKeys L.nA)
      (L.stateKeyA P))) A
    rw [hA] at this; exact this
  refine ⟨mk, t', ?_, e5, upd_same _ _ _, g1, g3, g4⟩
  show A3.out = _
  rw [g2]
  show A1.out ++ _ = _
  rw [oA1]; rfl

/-- One message: what happens with the stores in memory happens with the databases. -/
theorem db_step {L : Link} {uid : UID} (hL : L.OK P uid) {r : Round} (hr : r.OK P uid)
    (hparse : ∀ h : Header, h.Clean → (P.marshal h).length = 7152 → P.parse (P.marshal h) = some h)
    {s : Bytes} {k nA nB : Nat} {A A1 A' B B' : MemStore} {ss : State} {nym : Str} {x : Bytes × Str × Str}
    {SA SB : Store} (hex : exchange P L r A B = .ok (x, A', B'))
    (hA : (encSession P (L.encArgs r) r.rnd (effKeys L.nA) (L.stateKeyA P)).run
        (MemStore.handle P) A = (.ok (ss, nym), A1))
    (cA : Cov P (encSession P (L.encArgs r) r.rnd (effKeys L.nA) (L.stateKeyA P)) A)
    (hss : AState P L s k ss) (z1 : ss.senderSessionCount = 0) (z2 : ss.maxRecipientCount = 0)
    (hA1 : ∃ t, A1.sessions (L.keyA P s) = some t ∧ t.send.length = nA) (hkA : k < nA) (hnA : nA < 2 ^ 63)
    (hB : ∀ a : DecArgs, a.fresh = r.fresh →
      Cov P (decSession P a (effKeys L.nB) (P.dhPub r.rnd.headerPriv) L.bob (mkHeader (L.encArgs r) r.rnd ss)) B ∧
      ∃ s' B1 t, (decSession P a (effKeys L.nB) (P.dhPub r.rnd.headerPriv) L.bob
          (mkHeader (L.encArgs r) r.rnd ss)).run (MemStore.handle P) B = (.ok s', B1) ∧
        B1.sessions (L.keyB P s) = some t ∧ t.send.length = nB)
    (hkB : k < nB) (hnB : nB < 2 ^ 63) (RA : Rep A SA) (RB : Rep B SB) :
    ∃ SA' SB', dbExchange P L r SA SB = .ok (x, SA', SB') ∧ Rep A' SA' ∧ Rep B' SB' ∧
      A'.states (L.stateKeyA P) = some { ss with senderMessageCount := ss.senderMessageCount + 1 } ∧
      A'.skeys = A1.skeys ∧ (∃ t, A'.sessions (L.keyA P s) = some t ∧ t.send.length = nA) ∧
      (∃ t, B'.sessions (L.keyB P s) = some t ∧ t.send.length = nB) := by
  obtain ⟨t, ht, hlen⟩ := hA1
  have e1 : (L.encArgs r).from.pubKey.pub32 P = some (P.dhPub L.aPriv) := by
    rw [show (L.encArgs r).from.pubKey = initDHKey P L.aPriv from hL.a]
    exact initDHKey_pub32 P hP _
  have e2 : (L.encArgs r).to.pubKey.pub32 P = some (P.dhPub L.bPriv) := by
    rw [show (L.encArgs r).to.pubKey = (initDHKey P L.bPriv).public by
      simp only [Link.encArgs, hL.b]]
    exact initDHKey_public_pub32 P hP _
  have hkeyA : encSessionKey P (L.encArgs r) ss = L.keyA P s := by
    simp only [encSessionKey, Link.encArgs, hL.a, hL.b, hss.own, hss.hash]; rfl
  have covE : Cov P (encrypt P (L.encArgs r) r.rnd) A :=
    cov_encrypt hP e1 e2 hA cA (t := t) (by rw [hkeyA]; exact ht) hss.count (by omega) (by omega) z1 z2
  unfold exchange at hex
  cases hrun : (encrypt P (L.encArgs r) r.rnd).run (MemStore.handle P) A with
  | mk res A2 =>
  rw [hrun] at hex
  cases res with
  | err e => simp at hex
  | panic => simp at hex
  | ok nym' =>
  simp only at hex
  obtain ⟨mk, t', w1, w2, w3, w4, w5, w6⟩ := encrypt_wire hP hL hr hA hss ht (by omega) (by omega) hrun
  obtain ⟨nym2, SA', hS1, rfl, RA'⟩ := (rel_encrypt P (L.encArgs r) r.rnd).sim P RA.connect covE hrun
  have wireEq : SA'.out.drop SA.out.length = P.b64 (messageBytes P r.rnd (mkHeader (L.encArgs r) r.rnd ss)
          (P.dhPub L.bPriv) mk r.sigKey r.content) := by
    rw [RA'.out, RA.out, w1, List.drop_left]
  rw [w1, List.drop_left] at hex
  unfold openMsg at hex
  rw [hP.unb64_b64] at hex
  simp only [messageBytes] at hex
  rw [List.append_assoc, show Wire.preHeaderPacket = 1 from rfl,
    Wire.C04_first_roundtrip _ _ (by rw [hP.dhPub_len]; omega)] at hex
  simp only at hex
  have hh := decHead_message P hP r.rnd hr.rnd (mkHeader (L.encArgs r) r.rnd ss) w2
    (hparse _ (mkHeader_clean _ _ _) w2) (mkHeader_verify hP hL r hss) L.bob L.bPriv hL.b
    (encBody P mk r.rnd r.sigKey r.content) L.nB r.fresh
  obtain ⟨cB, s', B1, tb, d1, d2, d3⟩ := hB ⟨[L.bob], (newPre (P.dhPub r.rnd.headerPriv)).write,
        (newOuter Wire.encryptedHeader 1 (r.rnd.nonce ++ be16 7168 ++
          P.boxSeal (P.marshal (mkHeader (L.encArgs r) r.rnd ss)) r.rnd.nonce (P.dhPub L.bPriv)
            r.rnd.headerPriv)).write true ++ encBody P mk r.rnd r.sigKey r.content, L.nB, r.fresh⟩ rfl
  have hkeyB : decSessionKey P L.bob (mkHeader (L.encArgs r) r.rnd ss) = L.keyB P s := by
    simp only [decSessionKey, Link.keyB, mkHeader, Link.encArgs, hL.a, hL.b, hss.own, hss.hash]; rfl
  obtain ⟨covD, tb', q1, q2⟩ := cov_decrypt hh d1 cB (by rw [hkeyB]; exact d2) hss.count (by omega) (by omega)
  generalize hrd : (decrypt P ⟨[L.bob], (newPre (P.dhPub r.rnd.headerPriv)).write,
        (newOuter Wire.encryptedHeader 1 (r.rnd.nonce ++ be16 7168 ++
          P.boxSeal (P.marshal (mkHeader (L.encArgs r) r.rnd ss)) r.rnd.nonce (P.dhPub L.bPriv)
            r.rnd.headerPriv)).write true ++ encBody P mk r.rnd r.sigKey r.content, L.nB, r.fresh⟩).run
        (MemStore.handle P) B = y at hex q1
  obtain ⟨res, B2⟩ := y
  cases res with
  | err e => simp at hex
  | panic => simp at hex
  | ok v =>
  simp only [Except.ok.injEq, Prod.mk.injEq] at hex
  obtain ⟨rfl, rfl, rfl⟩ := hex
  obtain ⟨v2, SB', hS2, rfl, RB'⟩ := (rel_decrypt P _).sim P RB.connect covD hrd
  refine ⟨SA', SB', ?_, RA', RB', w3, w4, ⟨t', w5, by omega⟩, ⟨tb', by rw [← hkeyB]; exact q1, by omega⟩⟩
  unfold dbExchange dbEncrypt
  rw [hS1]
  simp only
  rw [wireEq]
  unfold dbOpen
  rw [hP.unb64_b64]
  simp only [messageBytes]
  rw [List.append_assoc, show Wire.preHeaderPacket = 1 from rfl,
    Wire.C04_first_roundtrip _ _ (by rw [hP.dhPub_len]; omega)]
  simp only
  rw [hS2]
  simp only
  rw [RB'.out, RB.out]

/-! ### The conversation -/

/-- Two users with new databases who have never communicated: the sender has the recipient's KeyInit,
the recipient has its private key. -/
structure Begin (P : Prims) (L : Link) (A B : Store) : Prop where
  a : A.db = DB.new
  b : B.db = DB.new
  pub : A.pubs L.bob.identity = some (initDHKey P L.kPriv).public
  priv : B.privs (keyHash P L.kPriv) = some (initDHKey P L.kPriv)

/-- The session keys that are drawn are not empty, and no later one is the first one again. -/
structure Drawn (P : Prims) (rs : List Round) : Prop where
  ne : ∀ r ∈ rs, r.rnd.sessPriv ≠ [] ∧ r.rnd.nextPriv ≠ [] ∧ r.fresh ≠ []
  diff : ∀ r0 ∈ rs.head?, ∀ r ∈ rs, keyHash P r.rnd.nextPriv ≠ keyHash P r0.rnd.sessPriv

/-- The store in memory that corresponds to a new database. -/
def Store.mem (S : Store) : MemStore :=
  { MemStore.new with privs := S.privs, pubs := S.pubs, nyms := S.nyms, out := S.out }

omit hP in
theorem Store.mem_rep {S : Store} (h : S.db = DB.new) : Rep S.mem S := by
  refine ⟨?_, rfl, rfl, rfl, rfl⟩
  rw [h]
  constructor <;> intros <;> simp_all [getSession, first, DB.new, MemStore.new, vals, plainStates, Store.mem]

omit hP in
theorem Begin.start {L : Link} {A B : Store} (h : Begin P L A B) : L.Start P A.mem B.mem :=
  ⟨rfl, rfl, fun _ => rfl, fun _ => rfl, h.pub, h.priv⟩

/-- Databases and the stores in memory they represent, after `k > 0` messages, before the messages `rs`. -/
structure DInv (P : Prims) (L : Link) (s root : Bytes) (k : Nat) (rs : List Round) (A B : MemStore)
    (SA SB : Store) : Prop where
  inv : Inv P L s root k A B
  ra : Rep A SA
  rb : Rep B SB
  st : ∃ ss, A.states (L.stateKeyA P) = some ss ∧ ss.senderSessionCount = 0 ∧ ss.maxRecipientCount = 0 ∧
    (ss.nextSenderSessionPub = none → ∀ r ∈ rs, A.skeys (keyHash P r.rnd.nextPriv) = none)
  la : ∃ t, A.sessions (L.keyA P s) = some t ∧ t.send.length = (effKeys L.nA).toNat
  lb : ∃ t, B.sessions (L.keyB P s) = some t ∧ t.send.length = (effKeys L.nB).toNat

omit hP in
theorem not_sender {L : Link} {r : Round} {A B A' : MemStore} {nym : Str}
    (h : (encrypt P (L.encArgs r) r.rnd).run (MemStore.handle P) A = (.ok nym, A')) :
    exchange P L r A B ≠ .error .sender := by
  unfold exchange
  rw [h]
  simp only
  split <;> simp

theorem db_first {L : Link} {uid : UID} (hL : L.OK P uid) {r : Round} (hr : r.OK P uid) (hf : r.Fits P L)
    (hparse : ∀ h : Header, h.Clean → (P.marshal h).length = 7152 → P.parse (P.marshal h) = some h)
    (hd : AllDifferent [P.dhPub r.rnd.headerPriv, P.dhPub L.aPriv,
      P.dhPub r.rnd.sessPriv, P.dhPub L.bPriv, P.dhPub L.kPriv])
    (rs : List Round) (hx : Drawn P (r :: rs)) {SA SB : Store} (hS : Begin P L SA SB) :
    ∃ s root A' B' SA' SB', dbExchange P L r SA SB =
        .ok ((r.content, L.alice.identity, sigOf P r.sigKey r.content), SA', SB') ∧
      DInv P L s root 1 rs A' B' SA' SB' := by
  have nA := effKeys_lt hL.nA
  have nB := effKeys_lt hL.nB
  have pA : 0 < (effKeys L.nA).toNat := by
    have := effKeys_ne L.nA
    have : (effKeys L.nA).toNat ≠ (0 : UInt64).toNat := fun e => this (UInt64.toNat_inj.mp e)
    have h0 : (0 : UInt64).toNat = 0 := rfl
    omega
  have pB : 0 < (effKeys L.nB).toNat := by
    have := effKeys_ne L.nB
    have : (effKeys L.nB).toNat ≠ (0 : UInt64).toNat := fun e => this (UInt64.toNat_inj.mp e)
    have h0 : (0 : UInt64).toNat = 0 := rfl
    omega
  have hpos : 0 < stuckAt (effKeys L.nB).toNat := Nat.lt_of_lt_of_le pB (le_stuckAt _)
  have hSt := hS.start
  obtain ⟨ss, nym, A1, t, h1, h2, h3, h4⟩ := encSession_first hP hL r hd hSt
  obtain ⟨n1, n2, n3⟩ := hx.ne r (by simp)
  obtain ⟨A1', g1, g2, g3⟩ := encSession_first' hP hL r hd hSt n1 rfl
  rw [g1] at h1
  obtain ⟨h11, rfl⟩ := Prod.mk.inj h1
  obtain ⟨rfl, rfl⟩ : startState P L r.rnd.sessPriv (SA.mem.nyms L.bob.identity) = ss ∧
      SA.mem.nyms L.bob.identity = nym := by
    simpa using h11
  obtain ⟨A2, hA2⟩ := encrypt_run hP hL hr hf (deriveRootKey_len P hP _ _ _ _) (by omega) g1 h2 h4
  rcases exchange_step hP hL hr hparse (deriveRootKey_len P hP _ _ _ _) hpos g1 h2 h4
      (fun a => by
        obtain ⟨B1, sb, t, d1, d2, d3, d4⟩ := decSession_first hP hL a (P.dhPub r.rnd.headerPriv)
          (h := mkHeader (L.encArgs r) r.rnd (startState P L r.rnd.sessPriv (SA.mem.nyms L.bob.identity)))
          (s := r.rnd.sessPriv) rfl
          (by simp only [mkHeader, h2.own]) (by simp only [mkHeader, Link.encArgs, hL.a]) h2.hash
          (by simp only [mkHeader, h3, Option.map_none]) hd hSt
        exact ⟨B1, sb, t, _, d1, d2, d3, d4⟩) with h | ⟨A', B', h, h'⟩
  · exact absurd h (not_sender hA2)
  · obtain ⟨SA', SB', q1, q2, q3, q4, q5, q6, q7⟩ := db_step hP hL hr hparse h g1 g3 h2 rfl rfl
      ⟨t, h4.sess, h4.slen⟩ pA (by omega) (fun a ha => by
        obtain ⟨B1, sb, t, d1, d2, d3, d4⟩ := decSession_first hP hL a (P.dhPub r.rnd.headerPriv)
          (h := mkHeader (L.encArgs r) r.rnd (startState P L r.rnd.sessPriv (SA.mem.nyms L.bob.identity)))
          (s := r.rnd.sessPriv) rfl
          (by simp only [mkHeader, h2.own]) (by simp only [mkHeader, Link.encArgs, hL.a]) h2.hash
          (by simp only [mkHeader, h3, Option.map_none]) hd hSt
        refine ⟨cov_decSession_first hP hL a (P.dhPub r.rnd.headerPriv) (s := r.rnd.sessPriv)
          (by simp only [mkHeader, h2.own]) (by simp only [mkHeader, Link.encArgs, hL.a]) h2.hash
          (by simp only [mkHeader, h3, Option.map_none]) hd hSt (by rw [ha]; exact n3) rfl,
          some sb, B1, t, d1, d4.sess, d4.slen⟩) pB (by omega)
        (Store.mem_rep hS.a) (Store.mem_rep hS.b)
    refine ⟨_, _, A', B', SA', SB', q1, ⟨h', q2, q3, ⟨_, q4, rfl, rfl, fun _ r' hr' => ?_⟩, q6, q7⟩⟩
    rw [q5, g2]
    rw [upd_other _ _ (hx.diff r (by simp) r' (by simp [hr']))]
    rfl

theorem db_later {L : Link} {uid : UID} (hL : L.OK P uid) {r : Round} (hr : r.OK P uid) (hf : r.Fits P L)
    (hparse : ∀ h : Header, h.Clean → (P.marshal h).length = 7152 → P.parse (P.marshal h) = some h)
    {s root : Bytes} {k : Nat} {rs : List Round} {A B : MemStore} {SA SB : Store}
    (D : DInv P L s root k (r :: rs) A B SA SB) (hx : r.rnd.nextPriv ≠ [])
    (hkA : k < (effKeys L.nA).toNat) (hkB : k < (effKeys L.nB).toNat) :
    ∃ A' B' SA' SB', dbExchange P L r SA SB =
        .ok ((r.content, L.alice.identity, sigOf P r.sigKey r.content), SA', SB') ∧
      DInv P L s root (k + 1) rs A' B' SA' SB' := by
  have nA := effKeys_lt hL.nA
  have nB := effKeys_lt hL.nB
  obtain ⟨ss0, hst, hss0⟩ := D.inv.stA
  obtain ⟨ss0', hst', z1, z2, hfr⟩ := D.st
  obtain rfl := Option.some.inj (hst.symm.trans hst')
  obtain ⟨ss, A1, h1, hc, h3, h4⟩ := encSession_later' hP (L := L) r hst z1 z2
    (by rw [hss0.count, ofNat_toNat (show k < 2 ^ 64 by omega)]; omega) hx (fun hn => hfr hn r (by simp))
  obtain ⟨ss2, nym2, A2', h1', h2, -⟩ := encSession_later (P := P) r hst hss0
  rw [h1] at h1'
  obtain ⟨e1, rfl⟩ := Prod.mk.inj h1'
  obtain ⟨rfl, rfl⟩ : ss = ss2 ∧ ss0.nymAddress = nym2 := by simpa using e1
  obtain ⟨m, t, J⟩ := D.inv.send
  obtain ⟨A2, hA2⟩ := encrypt_run hP hL hr hf D.inv.rlen (by omega) h1 h2
    (t := t) (m := m) ⟨by rw [h3]; exact J.sess, J.le, J.small, J.chain, J.slen, J.keys⟩
  have z1' : ss.senderSessionCount = 0 := by
    rcases h4 with ⟨rfl, -⟩ | rfl
    · exact z1
    · exact z1
  have z2' : ss.maxRecipientCount = 0 := by
    rcases h4 with ⟨rfl, -⟩ | rfl
    · exact z2
    · exact z2
  obtain ⟨sb, hb, hsb⟩ := D.inv.stB
  obtain ⟨tb, htb, hlb⟩ := D.lb
  rcases exchange_later hP hL hr hparse (Nat.lt_of_lt_of_le hkB (le_stuckAt _)) D.inv with h | ⟨A', B', h, I'⟩
  · exact absurd h (not_sender hA2)
  · obtain ⟨SA', SB', q1, q2, q3, q4, q5, q6, q7⟩ := db_step hP hL hr hparse h h1 hc h2 z1' z2'
      (by obtain ⟨t, a, b⟩ := D.la; exact ⟨t, by rw [h3]; exact a, b⟩) hkA (by omega) (fun a ha => by
        have hd := decSession_later hP hL a (P.dhPub r.rnd.headerPriv)
          (h := mkHeader (L.encArgs r) r.rnd ss) (s := s) (by simp only [mkHeader, h2.own])
          (by simp only [mkHeader, Link.encArgs, hL.a]) h2.hash
          (by simp only [mkHeader, h2.seen, Option.map_none]) hb hsb htb
        obtain ⟨f1, f2⟩ := delPriv_frame B (keyHash P L.kPriv)
        exact ⟨cov_decSession_later hP hL a (P.dhPub r.rnd.headerPriv)
          (h := mkHeader (L.encArgs r) r.rnd ss) (s := s) (by simp only [mkHeader, h2.own])
          (by simp only [mkHeader, Link.encArgs, hL.a]) h2.hash
          (by simp only [mkHeader, h2.seen, Option.map_none]) hb hsb htb,
          _, _, tb, hd, by rw [f1]; exact htb, hlb⟩) hkB (by omega) D.ra D.rb
    refine ⟨A', B', SA', SB', q1, ⟨I', q2, q3, ⟨_, q4, z1', z2', fun hn r' hr' => ?_⟩, q6, q7⟩⟩
    rw [q5]
    rcases h4 with ⟨rfl, e⟩ | rfl
    · rw [e]; exact hfr hn r' (by simp [hr'])
    · simp at hn

theorem db_rest {L : Link} {uid : UID} (hL : L.OK P uid)
    (hparse : ∀ h : Header, h.Clean → (P.marshal h).length = 7152 → P.parse (P.marshal h) = some h)
    (rs : List Round) (hrs : ∀ r ∈ rs, r.OK P uid) (hfit : ∀ r ∈ rs, r.Fits P L)
    (hx : ∀ r ∈ rs, r.rnd.nextPriv ≠ []) {s root : Bytes} (k : Nat)
    (hkA : k + rs.length ≤ (effKeys L.nA).toNat) (hkB : k + rs.length ≤ (effKeys L.nB).toNat)
    (A B : MemStore) (SA SB : Store) (D : DInv P L s root k rs A B SA SB) :
    ∃ A' B' SA' SB', dbConversation P L rs SA SB =
        .ok (rs.map fun r => (r.content, L.alice.identity, sigOf P r.sigKey r.content), SA', SB') ∧
      DInv P L s root (k + rs.length) [] A' B' SA' SB' := by
  induction rs generalizing k A B SA SB with
  | nil => exact ⟨A, B, SA, SB, rfl, D⟩
  | cons r rs ih =>
    simp only [List.length_cons] at hkA hkB
    obtain ⟨A', B', SA', SB', q1, D'⟩ := db_later hP hL (hrs r (by simp)) (hfit r (by simp)) hparse D
      (hx r (by simp)) (by omega) (by omega)
    obtain ⟨A2, B2, SA2, SB2, q2, D2⟩ := ih (fun r hr => hrs r (by simp [hr])) (fun r hr => hfit r (by simp [hr]))
      (fun r hr => hx r (by simp [hr])) (k + 1) (by omega) (by omega) A' B' SA' SB' D'
    refine ⟨A2, B2, SA2, SB2, ?_, ?_⟩
    · simp only [dbConversation, q1, q2, List.map_cons]
    · rw [List.length_cons, show k + (rs.length + 1) = k + 1 + rs.length by omega]; exact D2

theorem db_all {L : Link} {uid : UID} (hL : L.OK P uid)
    (hparse : ∀ h : Header, h.Clean → (P.marshal h).length = 7152 → P.parse (P.marshal h) = some h)
    (r : Round) (rs : List Round) (hrs : ∀ r' ∈ r :: rs, r'.OK P uid) (hfit : ∀ r' ∈ r :: rs, r'.Fits P L)
    (hd : AllDifferent [P.dhPub r.rnd.headerPriv, P.dhPub L.aPriv,
      P.dhPub r.rnd.sessPriv, P.dhPub L.bPriv, P.dhPub L.kPriv])
    (hx : Drawn P (r :: rs)) (hkA : (r :: rs).length ≤ (effKeys L.nA).toNat)
    (hkB : (r :: rs).length ≤ (effKeys L.nB).toNat)
    (SA SB : Store) (hS : Begin P L SA SB) :
    ∃ s root A' B' SA' SB', dbConversation P L (r :: rs) SA SB =
        .ok ((r :: rs).map fun r => (r.content, L.alice.identity, sigOf P r.sigKey r.content), SA', SB') ∧
      DInv P L s root (r :: rs).length [] A' B' SA' SB' := by
  simp only [List.length_cons] at hkA hkB
  obtain ⟨s, root, A', B', SA', SB', q1, D'⟩ := db_first hP hL (hrs r (by simp)) (hfit r (by simp)) hparse hd rs hx hS
  obtain ⟨A2, B2, SA2, SB2, q2, D2⟩ := db_rest hP hL hparse rs (fun r hr => hrs r (by simp [hr]))
    (fun r hr => hfit r (by simp [hr])) (fun r hr => (hx.ne r (by simp [hr])).2.1) 1 (by omega) (by omega)
    A' B' SA' SB' D'
  refine ⟨s, root, A2, B2, SA2, SB2, ?_, ?_⟩
  · simp only [dbConversation, q1, q2, List.map_cons]
  · rw [List.length_cons, Nat.add_comm]; exact D2

/-! ### After the last of the stored keys -/

omit hP in
/-- Row identifiers of sessions start at 1. -/
def Pos (st : Store) : Prop := ∀ r ∈ st.db.sessions, 0 < r.1

omit hP in
theorem Pos.step {st : Store} (h : Pos st) {β : Type} (r : Req β) : Pos (Store.handle P r st).2 := by
  cases r with
  | storeSession k root chain send recv =>
    show ∀ r ∈ (addSession st.db k root chain send recv).2.sessions, 0 < r.1
    unfold addSession
    repeat' split
    all_goals try exact h
    · dsimp only
      rw [(addKeys_spec _ _ _ _ _).2.1]
      intro r hr
      simp only [Sql.insert, List.mem_append, List.mem_singleton] at hr
      rcases hr with hr | rfl
      · exact h r hr
      · unfold nextId; exact Nat.succ_pos _
    · dsimp only
      rw [(addKeys_spec _ _ _ _ _).2.1]
      intro r hr
      obtain ⟨r', hr', rfl⟩ := List.mem_map.mp hr
      split
      · exact h r' hr'
      · exact h r' hr'
  | setState k s =>
    show ∀ r ∈ (setState st.db k (plain s)).2.sessions, 0 < r.1
    unfold setState
    repeat' split
    all_goals exact h
  | delMsgKey k s i =>
    show ∀ r ∈ (delMessageKey st.db k s i).2.sessions, 0 < r.1
    unfold delMessageKey
    repeat' split
    all_goals exact h
  | addSKey a b c =>
    show ∀ r ∈ (addSKey st.db a b c).2.sessions, 0 < r.1
    unfold addSKey
    repeat' split
    all_goals exact h
  | delSKey a =>
    show ∀ r ∈ (delSKey st.db a).2.sessions, 0 < r.1
    unfold delSKey
    repeat' split
    all_goals exact h
  | _ => exact h

omit hP in
theorem Pos.run {α : Type} {p : Prog α} {st : Store} (h : Pos st) : Pos (p.run (Store.handle P) st).2 := by
  induction p generalizing st with
  | ret a => exact h
  | fail e => exact h
  | panic => exact h
  | call r f ih => exact ih _ (h.step r)

omit hP in
theorem Pos.exchange {L : Link} {r : Round} {A B A' B' : Store} {x : Bytes × Str × Str}
    (h : Pos A) (he : dbExchange P L r A B = .ok (x, A', B')) : Pos A' := by
  unfold dbExchange at he
  have := Pos.run (P := P) (p := encrypt P (L.encArgs r) r.rnd) (st := A.connect) h
  change Pos (dbEncrypt P L r A).2 at this
  generalize dbEncrypt P L r A = y at he this
  obtain ⟨res, A2⟩ := y
  cases res with
  | err e => simp at he
  | panic => simp at he
  | ok nym =>
    simp only at he
    split at he
    · simp only [Except.ok.injEq, Prod.mk.injEq] at he
      rw [← he.2.1]; exact this
    · simp at he

omit hP in
theorem Pos.conversation {L : Link} (rs : List Round) {A B A' B' : Store} {x : List (Bytes × Str × Str)}
    (h : Pos A) (he : dbConversation P L rs A B = .ok (x, A', B')) : Pos A' := by
  induction rs generalizing A B x with
  | nil =>
    simp only [dbConversation, Except.ok.injEq, Prod.mk.injEq] at he
    rw [← he.2.1]; exact h
  | cons r rs ih =>
    unfold dbConversation at he
    cases hx : dbExchange P L r A B with
    | error e => rw [hx] at he; simp at he
    | ok v =>
      obtain ⟨x1, A1, B1⟩ := v
      rw [hx] at he
      simp only at he
      cases hy : dbConversation P L rs A1 B1 with
      | error e => rw [hy] at he; simp at he
      | ok w =>
        obtain ⟨x2, A2, B2⟩ := w
        rw [hy] at he
        simp only [Except.ok.injEq, Prod.mk.injEq] at he
        obtain ⟨-, rfl, rfl⟩ := he
        exact ih (h.exchange hx) hy

omit hP in
/-- A program that fails and changes nothing. -/
def Blocked {α : Type} (P : Prims) (q : Prog α) (st : Store) : Prop :=
  (∀ x, (q.run (Store.handle P) st).1 ≠ .ok x) ∧ (q.run (Store.handle P) st).2 = st

omit hP in
theorem Blocked.noCall {α β : Type} {p : Prog α} {f : α → Prog β} {st : Store} (hp : NoCall p)
    (h : ∀ a, Blocked P (f a) st) : Blocked P (p.bind f) st := by
  cases hp
  · exact h _
  · exact ⟨fun _ => by simp [Prog.bind, Prog.run], rfl⟩
  · exact ⟨fun _ => by simp [Prog.bind, Prog.run], rfl⟩

/-- The session state is at a message for which there is no key, but the number of keys says
that there is. -/
structure Stuck (P : Prims) (L : Link) (s : Bytes) (c : UInt64) (st : Store) : Prop where
  state : ∃ ss, getState st.db (L.stateKeyA P) = .ok (some ss) ∧ ss.senderSessionPub.hash = keyHash P s ∧
    ss.recipientTemp.hash = keyHash P L.kPriv ∧ ss.senderMessageCount = c
  key : ∃ id row, getSession st.db (L.keyA P s) = some (id, row) ∧ c < UInt64.ofNat row.num ∧
    first (keyQuery id c.toNat true) st.db.keys = none

omit hP in
theorem getState_set {db : DB} {k : Str} {ss s' : State} (h : getState db k = .ok (some ss)) :
    (setState db k s').2.sessions = db.sessions ∧ (setState db k s').2.keys = db.keys ∧
    (getState (setState db k s').2 k = .ok (some ss) ∨ getState (setState db k s').2 k = .ok (some s')) := by
  unfold getState at h
  split at h
  · cases h
  rename_i hk
  cases hf : first (fun r : Str × State => r.1 == k) db.states with
  | none => rw [hf] at h; simp at h
  | some x =>
  rw [hf] at h
  have e : x.2.2 = ss := by simpa using h
  have hx : x.2.1 = k := by simpa using List.find?_some hf
  unfold setState
  rw [if_neg hk]
  split
  · refine ⟨rfl, rfl, .inl ?_⟩
    unfold getState
    rw [if_neg hk, hf]
    simp [e]
  · rw [hf]
    simp only [Option.isSome_some, if_true]
    refine ⟨trivial, trivial, .inr ?_⟩
    unfold getState
    rw [if_neg hk]
    simp only
    rw [first_update (fun r : Str × State => r.1 == k) (fun r => r.1 == k) (fun r => (r.1, s')) db.states
        (fun a _ => rfl), hf]
    simp [hx]

omit hP in
theorem addSKey_same (db : DB) (h : Str) (ke : KeyEntry) (p : Str) :
    (addSKey db h ke p).2.sessions = db.sessions ∧ (addSKey db h ke p).2.keys = db.keys ∧
    (addSKey db h ke p).2.states = db.states := by
  unfold addSKey
  repeat' split
  all_goals exact ⟨rfl, rfl, rfl⟩

omit hP in
theorem Stuck.of_same {L : Link} {s : Bytes} {c : UInt64} {st st' : Store} (h : Stuck P L s c st)
    (h1 : st'.db.sessions = st.db.sessions) (h2 : st'.db.keys = st.db.keys) (h3 : st'.db.states = st.db.states) :
    Stuck P L s c st' := by
  obtain ⟨⟨ss, a1, a2⟩, id, row, b1, b2, b3⟩ := h
  refine ⟨⟨ss, ?_, a2⟩, id, row, ?_, b2, by rw [h2]; exact b3⟩
  · unfold getState at a1 ⊢; rw [h3]; exact a1
  · unfold getSession at b1 ⊢; rw [h1]; exact b1

omit hP in
theorem Stuck.setState {L : Link} {s : Bytes} {c : UInt64} {st : Store} (h : Stuck P L s c st) {s' : State}
    (h1 : s'.senderSessionPub.hash = keyHash P s) (h2 : s'.recipientTemp.hash = keyHash P L.kPriv)
    (h3 : s'.senderMessageCount = c) :
    Stuck P L s c { st with db := (setState st.db (L.stateKeyA P) s').2 } := by
  obtain ⟨⟨ss, a1, a2⟩, id, row, b1, b2, b3⟩ := h
  obtain ⟨g1, g2, g3⟩ := getState_set (s' := s') a1
  refine ⟨?_, id, row, ?_, b2, ?_⟩
  · rcases g3 with g3 | g3
    · exact ⟨ss, g3, a2⟩
    · exact ⟨s', g3, h1, h2, h3⟩
  · unfold getSession at b1 ⊢; simp only; rw [g1]; exact b1
  · simp only; rw [g2]; exact b3

omit hP in
theorem run_ask_err {α β : Type} {r : Req (Except SErr α)} {f : α → Prog β} {st : Store} {e : SErr}
    (h : (Store.handle P r st).1 = .error e) :
    ((Prog.ask r).bind f).run (Store.handle P) st = (.err (.store e), (Store.handle P r st).2) := by
  unfold Prog.ask
  simp only [Prog.bind, Prog.run]
  rw [h]
  rfl

omit hP in
theorem run_ask_good {α β : Type} {r : Req (Except SErr α)} {f : α → Prog β} {st : Store} {a : α}
    (h : (Store.handle P r st).1 = .ok a) :
    ((Prog.ask r).bind f).run (Store.handle P) st = (f a).run (Store.handle P) (Store.handle P r st).2 := by
  unfold Prog.ask
  simp only [Prog.bind, Prog.run]
  rw [h]
  rfl

omit hP in
theorem prog_assoc {α β γ : Type} (p : Prog α) (f : α → Prog β) (g : β → Prog γ) :
    (p.bind f).bind g = p.bind fun x => (f x).bind g := by
  induction p with
  | ret a => rfl
  | fail e => rfl
  | panic => rfl
  | call r k ih => simp only [Prog.bind, ih]

omit hP in
/-- Session handling when sending: it cannot change that the sender is stuck. -/
theorem stuck_encSession {L : Link} (r : Round) {s : Bytes} {c : UInt64} {st : Store} (h : Stuck P L s c st)
    {β : Type} (f : State × Str → Prog β)
    (hf : ∀ ss nym st', Stuck P L s c st' → ss.senderSessionPub.hash = keyHash P s →
      ss.recipientTemp.hash = keyHash P L.kPriv → ss.senderMessageCount = c → Blocked P (f (ss, nym)) st') :
    (∀ x, (((encSession P (L.encArgs r) r.rnd (effKeys L.nA) (L.stateKeyA P)).bind f).run (Store.handle P) st).1 ≠ .ok x) ∧
    Stuck P L s c (((encSession P (L.encArgs r) r.rnd (effKeys L.nA) (L.stateKeyA P)).bind f).run (Store.handle P) st).2 := by
  obtain ⟨⟨ss, a1, a2, a3, a4⟩, hkey⟩ := h
  have h : Stuck P L s c st := ⟨⟨ss, a1, a2, a3, a4⟩, hkey⟩
  have fin : ∀ ss nym st', Stuck P L s c st' → ss.senderSessionPub.hash = keyHash P s →
      ss.recipientTemp.hash = keyHash P L.kPriv → ss.senderMessageCount = c →
      (∀ x, ((f (ss, nym)).run (Store.handle P) st').1 ≠ .ok x) ∧
      Stuck P L s c ((f (ss, nym)).run (Store.handle P) st').2 := by
    intro ss nym st' q1 q2 q3 q4
    obtain ⟨u1, u2⟩ := hf ss nym st' q1 q2 q3 q4
    exact ⟨u1, by rw [u2]; exact q1⟩
  unfold encSession
  simp only [bind_eq]
  rw [if_pos (by show statusOK ≠ _; decide), prog_assoc]
  rw [run_ask_good (a := some ss) (by exact a1)]
  rw [show (Store.handle P (.getState (L.stateKeyA P)) st).2 = st from rfl]
  simp only
  rw [if_pos (by show statusOK ≠ _; decide)]
  split
  · simp only [setNextSenderSessionPub, addSessionKey, bind_eq, initDHKey_priv32, orPanic, ret_bind, prog_assoc]
    cases hk : (Store.handle P (.addSKey (initDHKey P r.rnd.nextPriv).hash (initDHKey P r.rnd.nextPriv).public
        (P.b64 r.rnd.nextPriv)) st).1 with
    | error e =>
      rw [run_ask_err hk]
      obtain ⟨x1, x2, x3⟩ := addSKey_same st.db (initDHKey P r.rnd.nextPriv).hash
        (initDHKey P r.rnd.nextPriv).public (P.b64 r.rnd.nextPriv)
      exact ⟨by simp, h.of_same x1 x2 x3⟩
    | ok v =>
      rw [run_ask_good hk]
      obtain ⟨x1, x2, x3⟩ := addSKey_same st.db (initDHKey P r.rnd.nextPriv).hash
        (initDHKey P r.rnd.nextPriv).public (P.b64 r.rnd.nextPriv)
      have h' : Stuck P L s c (Store.handle P (.addSKey (initDHKey P r.rnd.nextPriv).hash
        (initDHKey P r.rnd.nextPriv).public (P.b64 r.rnd.nextPriv)) st).2 := h.of_same x1 x2 x3
      have h'' := h'.setState (s' := plain { ss with nextSenderSessionPub := some (initDHKey P r.rnd.nextPriv) })
        a2 a3 a4
      cases hk2 : (Store.handle P (.setState (L.stateKeyA P)
          { ss with nextSenderSessionPub := some (initDHKey P r.rnd.nextPriv) })
          (Store.handle P (.addSKey (initDHKey P r.rnd.nextPriv).hash
        (initDHKey P r.rnd.nextPriv).public (P.b64 r.rnd.nextPriv)) st).2).1 with
      | error e =>
        rw [run_ask_err hk2]
        exact ⟨by simp, h''⟩
      | ok v =>
        rw [run_ask_good hk2]
        exact fin _ _ _ h'' a2 a3 a4
  · exact fin _ _ _ h a2 a3 a4

omit hP in
theorem Blocked.ask {α β : Type} {r : Req (Except SErr α)} {f : α → Prog β} {st : Store}
    (h : ∀ a, (Store.handle P r st).1 = .ok a → Blocked P (f a) st) (hs : (Store.handle P r st).2 = st) :
    Blocked P ((Prog.ask r).bind f) st := by
  unfold Blocked
  cases hk : (Store.handle P r st).1 with
  | error e => rw [run_ask_err hk]; exact ⟨by simp, hs⟩
  | ok a => rw [run_ask_good hk, hs]; exact h a hk

/-- Once stuck, no message can be sent, and the sender stays stuck. -/
theorem Stuck.attempt {L : Link} {uid : UID} (hL : L.OK P uid) (r : Round) {s : Bytes} {c : UInt64} {st : Store}
    (h : Stuck P L s c st) : (∀ nym, (dbEncrypt P L r st).1 ≠ .ok nym) ∧ Stuck P L s c (dbEncrypt P L r st).2 := by
  have h0 : Stuck P L s c st.connect := h.of_same rfl rfl rfl
  unfold dbEncrypt
  have hk : ∀ ss : State, ss.senderSessionPub.hash = keyHash P s → ss.recipientTemp.hash = keyHash P L.kPriv →
      calcKey P (L.encArgs r).from.pubKey.hash (L.encArgs r).to.pubKey.hash ss.senderSessionPub.hash
        ss.recipientTemp.hash = L.keyA P s := by
    intro ss h1 h2
    simp only [Link.encArgs, hL.a, hL.b, h1, h2]; rfl
  have e1 : (L.encArgs r).from.pubKey.pub32 P = some (P.dhPub L.aPriv) := by
    rw [show (L.encArgs r).from.pubKey = initDHKey P L.aPriv from hL.a]
    exact initDHKey_pub32 P hP _
  have e2 : (L.encArgs r).to.pubKey.pub32 P = some (P.dhPub L.bPriv) := by
    rw [show (L.encArgs r).to.pubKey = (initDHKey P L.bPriv).public by
      simp only [Link.encArgs, hL.b]]
    exact initDHKey_public_pub32 P hP _
  unfold encrypt
  simp only [bind_eq, e1, e2, orPanic, ret_bind]
  refine stuck_encSession r h0 _ fun ss nym st' g1 g2 g3 g4 => ?_
  simp only
  refine Blocked.noCall (noCall_newHeader _ _ _) fun h => ?_
  refine Blocked.noCall (noCall_uidPublicKey P _) fun rp => ?_
  refine Blocked.noCall (noCall_headerPacket P _ _ _ _) fun hp => ?_
  rw [hk ss g2 g3]
  obtain ⟨-, id, row, k1, k2, k3⟩ := g1
  have hnum : numMessageKeys st'.db (L.keyA P s) = .ok (UInt64.ofNat row.num) := by
    unfold numMessageKeys; rw [k1]
  unfold encExtend
  simp only [bind_eq]
  rw [prog_assoc]
  refine Blocked.ask (fun a ha => ?_) rfl
  change numMessageKeys st'.db (L.keyA P s) = .ok a at ha
  rw [hnum] at ha
  obtain rfl := Except.ok.inj ha
  rw [if_neg (by rw [g4]; exact UInt64.not_le.mpr k2), ret_bind]
  refine Blocked.ask (fun a ha => ?_) rfl
  change getMessageKey P st'.db (L.keyA P s) true ss.senderMessageCount = .ok a at ha
  unfold getMessageKey getKeyText at ha
  rw [k1] at ha
  simp only at ha
  rw [g4, k3] at ha
  split at ha
  · cases ha
  · rename_i hx
    split at hx
    · cases hx
    · cases hx

theorem Stuck.attempts {L : Link} {uid : UID} (hL : L.OK P uid) (rs : List Round) {s : Bytes} {c : UInt64} {st : Store}
    (h : Stuck P L s c st) : ∀ x ∈ (dbAttempts P L rs st).1, ∀ nym, x ≠ .ok nym := by
  induction rs generalizing st with
  | nil => intro x hx; simp [dbAttempts] at hx
  | cons r rs ih =>
    obtain ⟨h1, h2⟩ := h.attempt hP hL r
    intro x hx
    simp only [dbAttempts, List.mem_cons] at hx
    rcases hx with rfl | hx
    · exact h1
    · exact ih h2 x hx

omit hP in
theorem rep_state {A : MemStore} {SA : Store} (h : Rep A SA) {k : Str} {ss : State} (hk : k ≠ [])
    (hs : A.states k = some ss) : getState SA.db k = .ok (some (plain ss)) := by
  unfold getState
  rw [if_neg hk, h.db.states k]
  simp only [plainStates, hs, Option.map_some]

/-- The first message for which keys have to be made. -/
theorem last_attempt {L : Link} {uid : UID} (hL : L.OK P uid) {r : Round} (hf : r.Fits P L)
    (hn : r.rnd.newSession = false) {s root : Bytes} {A B : MemStore} {SA SB : Store}
    (D : DInv P L s root (effKeys L.nA).toNat [] A B SA SB) (hp : Pos SA) :
    (dbEncrypt P L r SA).1 = .err (.store .keyUsed) ∧
      Stuck P L s (UInt64.ofNat (effKeys L.nA).toNat) (dbEncrypt P L r SA).2 := by
  have nA := effKeys_lt hL.nA
  generalize hnn : (effKeys L.nA).toNat = n at *
  have npos : 0 < n := by
    have := effKeys_ne L.nA
    have : (effKeys L.nA).toNat ≠ (0 : UInt64).toNat := fun e => this (UInt64.toNat_inj.mp e)
    have h0 : (0 : UInt64).toNat = 0 := rfl
    omega
  obtain ⟨ss, hst, hss⟩ := D.inv.stA
  obtain ⟨m, t, J⟩ := D.inv.send
  obtain ⟨t', ht', hl'⟩ := D.la
  obtain rfl := Option.some.inj (J.sess.symm.trans ht')
  have hm : m = n := by rw [← J.slen, hl']; exact hnn
  subst hm
  have hR := D.ra.connect
  have hS := hR.db.sess (L.keyA P s)
  have hgs := rep_state hR (k := L.stateKeyA P) (b64_sha_ne hP _) hst
  cases hg : getSession SA.connect.db (L.keyA P s) with
  | none =>
    rw [hg] at hS
    have : A.sessions (L.keyA P s) = none := hS
    rw [ht'] at this; cases this
  | some x =>
  obtain ⟨id, row⟩ := x
  rw [hg] at hS
  obtain ⟨t2, c1, c2, c3, c4, c5, c6, c7⟩ := hS
  obtain rfl := Option.some.inj (ht'.symm.trans c1)
  have hid : 0 < id := hp (id, row) (getSession_mem hg).1
  have hnum : row.num = m := by rw [c4, J.slen]
  have hnokey : (vals SA.connect.db.keys).find? (keyQuery id m true) = none := by
    have := c7 m true
    rw [if_pos rfl, List.getElem?_eq_none (by rw [J.slen]; exact Nat.le_refl _)] at this
    simpa [live] using this
  have hpp : ∀ k : KeyEntry, k.public.public = k.public := fun _ => rfl
  have hL' : Like ss (plain ss) := by
    constructor
    unfold plain
    cases ss.nextSenderSessionPub <;> cases ss.nextRecipientSessionPubSeen <;> rfl
  have e1 : (L.encArgs r).from.pubKey.pub32 P = some (P.dhPub L.aPriv) := by
    rw [show (L.encArgs r).from.pubKey = initDHKey P L.aPriv from hL.a]
    exact initDHKey_pub32 P hP _
  have eto : (L.encArgs r).to.pubKey = (initDHKey P L.bPriv).public := by
    simp only [Link.encArgs, hL.b]
  have e2 : (L.encArgs r).to.pubKey.pub32 P = some (P.dhPub L.bPriv) := by
    rw [eto]; exact initDHKey_public_pub32 P hP _
  have e3 : uidPublicKey P (L.encArgs r).to = .ret (P.dhPub L.bPriv) := by
    unfold uidPublicKey
    rw [eto]
    simp [initDHKey, KeyEntry.public, hP.unb64_b64, hP.dhPub_len]
  have hmar := hf.header s m ss hss
  have hhp : headerPacket P (mkHeader (L.encArgs r) r.rnd ss) (P.dhPub L.bPriv) r.rnd.headerPriv
      r.rnd.nonce = .ret (r.rnd.nonce ++ be16 7168 ++ P.boxSeal (P.marshal (mkHeader (L.encArgs r)
        r.rnd ss)) r.rnd.nonce (P.dhPub L.bPriv) r.rnd.headerPriv) := by
    unfold headerPacket
    simp only [hP.box_len, hmar]
    rfl
  have hkeyA : calcKey P (L.encArgs r).from.pubKey.hash (L.encArgs r).to.pubKey.hash
      (plain ss).senderSessionPub.hash (plain ss).recipientTemp.hash = L.keyA P s := by
    simp only [plain, KeyEntry.public, Link.encArgs, hL.a, hL.b, hss.own, hss.hash]; rfl
  have hcount : (plain ss).senderMessageCount = UInt64.ofNat m := hss.count
  have hsp : (plain ss).senderSessionPub.pub32 P = some (P.dhPub s) := by
    show ss.senderSessionPub.public.pub32 P = _
    rw [hss.own]; exact initDHKey_public_pub32 P hP _
  have hrp : (plain ss).recipientTemp.pub32 P = some (P.dhPub L.kPriv) := hss.pub
  -- the tables after the keys have been generated
  have hchain : getChainKey P SA.connect.db (L.keyA P s) = .ok (chainAt P root m) := by
    have hlen := chainAt_len P hP root D.inv.rlen m
    unfold getChainKey
    rw [hg]
    simp only
    rw [c3, J.chain, hP.unb64_b64]
    simp only
    rw [if_neg (by omega), List.take_of_length_le (by omega)]
  let send := keyList P (chainAt P root m) (P.sha512 (P.dhPub L.kPriv)) (L.fix P) m
  let recv := keyList P (chainAt P root m) (P.sha512 (P.dhPub s)) (L.fix P) m
  let chain := P.b64 (chainAt P (chainAt P root m) m)
  let set : SessRow → SessRow := fun r => { r with chain := chain, num := row.num + send.length }
  let db1 : DB := { SA.connect.db with
    sessions := update (fun r => r.key == L.keyA P s) set SA.connect.db.sessions }
  let db2 : DB := addKeys db1 0 row.num send recv
  have hsl : send.length = m := keyList_length _ _ _ _ _
  have hrl : recv.length = m := keyList_length _ _ _ _ _
  have hadd : addSession SA.connect.db (L.keyA P s) (P.b64 (P.sha512 (chainAt P root m))) chain send recv =
      (.ok (), db2) := by
    unfold addSession
    rw [if_neg (show L.keyA P s ≠ [] from b64_sha_ne hP _), if_neg (b64_sha_ne hP _),
      if_neg (chainAt_ne hP (chainAt_len P hP root D.inv.rlen m) m), if_neg (by rw [hsl, hrl]; simp), hg]
    rfl
  obtain ⟨a1, a2, a3, a4⟩ := addKeys_spec db1 0 row.num send recv
  have hg2 : getSession db2 (L.keyA P s) = some (id, set row) := by
    unfold getSession
    rw [show db2.sessions = db1.sessions from a2]
    show first _ (update (fun r => r.key == L.keyA P s) set SA.connect.db.sessions) = _
    rw [first_update (fun r : SessRow => r.key == L.keyA P s) (fun r => r.key == L.keyA P s)
      set _ (fun _ _ => rfl)]
    change (getSession SA.connect.db (L.keyA P s)).map _ = _
    rw [hg]
    have := (getSession_mem hg).2
    simp only [Option.map_some, this, beq_self_eq_true, if_true]
  have hno2 : first (keyQuery id m true) db2.keys = none := by
    have : (vals db2.keys).find? (keyQuery id m true) = none := by
      rw [show vals db2.keys = _ from a1, List.find?_append]
      rw [show (vals db1.keys).find? (keyQuery id m true) = none from hnokey, Option.none_or]
      exact find_none_of_sid fun r hr => by rw [keyRows_sid _ _ _ _ r hr]; omega
    have h2 := first_vals (keyQuery id m true) db2.keys
    rw [this] at h2
    cases hf : first (keyQuery id m true) db2.keys with
    | none => rfl
    | some x => rw [hf] at h2; cases h2
  have hmN : (UInt64.ofNat m).toNat = m := ofNat_toNat (show m < 2 ^ 64 by omega)
  have hrun : dbEncrypt P L r SA = (.err (.store .keyUsed), { SA.connect with db := db2 }) := by
    unfold dbEncrypt encrypt
    simp only [bind_eq, e1, e2, orPanic, ret_bind]
    unfold encSession
    simp only [bind_eq]
    rw [if_pos (by show statusOK ≠ _; decide), prog_assoc]
    refine (run_ask_good (a := some (plain ss)) (by exact hgs)).trans ?_
    simp only
    rw [if_pos (by show statusOK ≠ _; decide), if_neg (by rw [hn]; simp), ret_bind]
    simp only
    change Prog.run (Store.handle P) _ SA.connect = _
    rw [← hL'.header, run_bind_of_ok _ (newHeader_run (by exact hf.lastHash) (by exact hf.identity)
      (by exact hf.nym) (by exact hf.json))]
    rw [e3, ret_bind, hhp, ret_bind, hkeyA]
    unfold encExtend
    simp only [bind_eq]
    rw [prog_assoc]
    refine (run_ask_good (a := UInt64.ofNat m) (by
      show numMessageKeys SA.connect.db (L.keyA P s) = _
      unfold numMessageKeys; rw [hg]; simp only [hnum])).trans ?_
    rw [if_pos (by rw [hcount]; exact UInt64.le_refl _), prog_assoc]
    refine (run_ask_good (a := chainAt P root m) (by exact hchain)).trans ?_
    simp only [hsp, hrp, orPanic, ret_bind]
    rw [show (if (L.encArgs r).numOfKeys = 0 then numOfFutureKeys else (L.encArgs r).numOfKeys) =
      effKeys L.nA from rfl, generate_eq P _ _ _ _ _ _ _ _ _ (effKeys_ne L.nA), hnn]
    rw [show genKey P (L.encArgs r).from.pubKey.hash (L.encArgs r).to.pubKey.hash false (P.dhPub s)
        (P.dhPub L.kPriv) = L.keyA P s by simp only [Link.encArgs, hL.a, hL.b]; rfl]
    refine (run_ask_good (a := ()) (st := SA.connect) (by exact congrArg Prod.fst hadd)).trans ?_
    have hst2 : (Store.handle P (.storeSession (L.keyA P s) (P.b64 (P.sha512 (chainAt P root m))) chain send recv)
        SA.connect).2 = { SA.connect with db := db2 } :=
      congrArg (fun x : Except SErr Unit × DB => ({ SA.connect with db := x.2 } : Store)) hadd
    refine (congrArg (Prog.run (Store.handle P) _) hst2).trans ?_
    refine (run_ask_err (e := .keyUsed) ?_).trans rfl
    show getMessageKey P db2 (L.keyA P s) true (plain ss).senderMessageCount = _
    unfold getMessageKey getKeyText
    rw [hg2, hcount]
    simp only
    rw [hmN, hno2, if_neg (by unfold maxInt; omega)]
  rw [hrun]
  refine ⟨rfl, ⟨plain ss, ?_, ?_, ?_, hcount⟩, id, _, hg2, ?_, by rw [hmN]; exact hno2⟩
  · unfold getState at hgs ⊢
    rw [show db2.states = SA.connect.db.states from a3]
    exact hgs
  · show ss.senderSessionPub.hash = _
    rw [hss.own]; rfl
  · exact hss.hash
  · rw [UInt64.lt_iff_toNat_lt, hmN]
    show m < (UInt64.ofNat (row.num + send.length)).toNat
    rw [ofNat_toNat (by omega)]
    omega

/-- C141: two users with new key databases who have never communicated exchange messages in one
direction, in order, with a new run of mutecrypt for each message at either side, and at most as
many as keys are generated at a time (50 by default). Then every run succeeds and every message is
decrypted to exactly the content that was sent, attributed to the sender, with the sender's
signature: what is kept in the database between the runs is enough.

Missing: longer conversations, which is false, see below. -/
theorem C141_conversation_partial (L : Link) (uid : UID) (hL : L.OK P uid)
    (hparse : ∀ h : Header, h.Clean → (P.marshal h).length = 7152 → P.parse (P.marshal h) = some h)
    (rs : List Round) (hrs : ∀ r ∈ rs, r.OK P uid) (hfit : ∀ r ∈ rs, r.Fits P L)
    (hd : ∀ r ∈ rs.head?, AllDifferent [P.dhPub r.rnd.headerPriv, P.dhPub L.aPriv,
      P.dhPub r.rnd.sessPriv, P.dhPub L.bPriv, P.dhPub L.kPriv])
    (hx : Drawn P rs) (hkA : rs.length ≤ (effKeys L.nA).toNat) (hkB : rs.length ≤ (effKeys L.nB).toNat)
    (A B : Store) (hS : Begin P L A B) :
    ∃ A' B', dbConversation P L rs A B =
      .ok (rs.map fun r => (r.content, L.alice.identity, sigOf P r.sigKey r.content), A', B') := by
  cases rs with
  | nil => exact ⟨A, B, rfl⟩
  | cons r rs =>
    obtain ⟨-, -, -, -, A', B', h, -⟩ := db_all hP hL hparse r rs hrs hfit (hd r (by simp)) hx hkA hkB A B hS
    exact ⟨A', B', h⟩

/-- C141 is violated for longer conversations: after exactly as many messages as keys are generated
at a time, the next message (that does not happen to announce a new session) cannot be encrypted, and
from then on no message from this sender to this recipient can, whatever it contains. The keys
generated for it are stored for a session that does not exist, because the identifier of the session
is taken from the last row inserted on the connection, and nothing was inserted.  With the sessions in
memory the same message arrives. -/
theorem C141_sender_stuck_violated (L : Link) (uid : UID) (hL : L.OK P uid)
    (hparse : ∀ h : Header, h.Clean → (P.marshal h).length = 7152 → P.parse (P.marshal h) = some h)
    (rs : List Round) (hrs : ∀ r ∈ rs, r.OK P uid) (hfit : ∀ r ∈ rs, r.Fits P L)
    (hd : ∀ r ∈ rs.head?, AllDifferent [P.dhPub r.rnd.headerPriv, P.dhPub L.aPriv,
      P.dhPub r.rnd.sessPriv, P.dhPub L.bPriv, P.dhPub L.kPriv])
    (hx : Drawn P rs) (hkA : rs.length = (effKeys L.nA).toNat) (hkB : rs.length < (effKeys L.nB).toNat)
    (A B : Store) (hS : Begin P L A B) :
    ∃ xs A' B', dbConversation P L rs A B = .ok (xs, A', B') ∧
      ∀ r : Round, r.OK P uid → r.Fits P L → r.rnd.newSession = false →
        (dbEncrypt P L r A').1 = .err (.store .keyUsed) ∧
        (∀ more, ∀ x ∈ (dbAttempts P L (r :: more) A').1, ∀ nym, x ≠ .ok nym) ∧
        conversation P L (rs ++ [r]) A.mem B.mem =
          .ok ((rs ++ [r]).map fun r => (r.content, L.alice.identity, sigOf P r.sigKey r.content)) := by
  have hpos : 0 < (effKeys L.nA).toNat := by
    have := effKeys_ne L.nA
    have : (effKeys L.nA).toNat ≠ (0 : UInt64).toNat := fun e => this (UInt64.toNat_inj.mp e)
    have h0 : (0 : UInt64).toNat = 0 := rfl
    omega
  cases rs with
  | nil => simp at hkA; omega
  | cons r0 rs =>
    obtain ⟨s, root, mA, mB, A', B', h, D⟩ := db_all hP hL hparse r0 rs hrs hfit (hd r0 (by simp)) hx
      (Nat.le_of_eq hkA) (Nat.le_of_lt hkB) A B hS
    refine ⟨_, A', B', h, fun r hr hf hn => ?_⟩
    rw [hkA] at D
    have hp : Pos A' := Pos.conversation (r0 :: rs) (by rw [Pos, hS.a]; simp [DB.new]) h
    obtain ⟨q1, q2⟩ := last_attempt hP hL hf hn D hp
    refine ⟨q1, fun more x hx' nym => ?_, ?_⟩
    · simp only [dbAttempts, List.mem_cons] at hx'
      rcases hx' with rfl | hx'
      · rw [q1]; simp
      · exact q2.attempts hP hL more x hx' nym
    · refine C61_conversation_succeeds hP L uid hL hparse _ ?_ ?_ ?_ ?_ _ _ hS.start
      · intro r' hr'
        rcases List.mem_append.mp hr' with h' | h'
        · exact hrs r' h'
        · rw [List.mem_singleton.mp h']; exact hr
      · intro r' hr'
        rcases List.mem_append.mp hr' with h' | h'
        · exact hfit r' h'
        · rw [List.mem_singleton.mp h']; exact hf
      · intro r' hr'
        exact hd r' (by simpa using hr')
      · have := le_stuckAt (effKeys L.nB).toNat
        rw [List.length_append, List.length_singleton]
        omega

end

/-! ### The hypotheses are met -/

/-- Databases of two users who have never communicated. -/
def toyA : Store := ⟨DB.new, fun _ => none, Msg.upd (fun _ => none) Toy.bobE.identity
  (some (initDHKey Toy.PE [3]).public), fun _ => [], []⟩
def toyB : Store := ⟨DB.new, Msg.upd (fun _ => none) (keyHash Toy.PE [3]) (some (initDHKey Toy.PE [3])),
  fun _ => none, fun _ => [], []⟩

theorem toy_begin : Begin Toy.PE Toy.linkE toyA toyB :=
  ⟨rfl, rfl, upd_same (fun _ => none) Toy.bobE.identity _, upd_same (fun _ => none) (keyHash Toy.PE [3]) _⟩

/-- Two messages; the sender makes two keys at a time. -/
def toyRounds : List Round := [Toy.roundE 1 [104, 105] true, Toy.roundE 2 [] true]

theorem toy_drawn : Drawn Toy.PE toyRounds where
  ne := by
    intro r hr
    simp only [toyRounds, List.mem_cons, List.not_mem_nil, or_false] at hr
    rcases hr with rfl | rfl <;> exact ⟨by decide, by decide, by decide⟩
  diff := by
    intro r0 h0 r hr
    obtain rfl : Toy.roundE 1 [104, 105] true = r0 := Option.some.inj h0
    simp only [toyRounds, List.mem_cons, List.not_mem_nil, or_false] at hr
    rcases hr with rfl | rfl <;> decide +kernel

/-- Two messages arrive, the third one and all later ones cannot be encrypted. -/
example : ∃ xs A' B', dbConversation Toy.PE Toy.linkE toyRounds toyA toyB = .ok (xs, A', B') ∧
    (dbEncrypt Toy.PE Toy.linkE (Toy.roundE 3 [120] false) A').1 = .err (.store .keyUsed) ∧
    ∀ more, ∀ x ∈ (dbAttempts Toy.PE Toy.linkE (Toy.roundE 3 [120] false :: more) A').1, ∀ nym, x ≠ .ok nym := by
  obtain ⟨xs, A', B', h1, h2⟩ := C141_sender_stuck_violated Toy.PE_good Toy.linkE _ Toy.linkE_ok Toy.emarshal_parse
    toyRounds
    (by intro r hr
        simp only [toyRounds, List.mem_cons, List.not_mem_nil, or_false] at hr
        rcases hr with rfl | rfl <;> exact Toy.roundE_ok _ _ _)
    (by intro r hr
        simp only [toyRounds, List.mem_cons, List.not_mem_nil, or_false] at hr
        rcases hr with rfl | rfl <;> exact Toy.roundE_fits _ _ (by simp) _)
    (by intro r hr
        obtain rfl : Toy.roundE 1 [104, 105] true = r := Option.some.inj hr
        decide +kernel)
    toy_drawn (by decide) (by decide) toyA toyB toy_begin
  obtain ⟨q1, q2, -⟩ := h2 (Toy.roundE 3 [120] false) (Toy.roundE_ok _ _ _) (Toy.roundE_fits _ _ (by simp) _) rfl
  exact ⟨xs, A', B', h1, q1, q2⟩

/-- And what arrives is what was sent. -/
example : ∃ A' B', dbConversation Toy.PE Toy.linkE toyRounds toyA toyB =
    .ok ([([104, 105], Toy.aliceE.identity, sigOf Toy.PE (some Toy.sigPub) [104, 105]),
      ([], Toy.aliceE.identity, sigOf Toy.PE (some Toy.sigPub) [])], A', B') :=
  C141_conversation_partial Toy.PE_good Toy.linkE _ Toy.linkE_ok Toy.emarshal_parse
    toyRounds
    (by intro r hr
        simp only [toyRounds, List.mem_cons, List.not_mem_nil, or_false] at hr
        rcases hr with rfl | rfl <;> exact Toy.roundE_ok _ _ _)
    (by intro r hr
        simp only [toyRounds, List.mem_cons, List.not_mem_nil, or_false] at hr
        rcases hr with rfl | rfl <;> exact Toy.roundE_fits _ _ (by simp) _)
    (by intro r hr
        obtain rfl : Toy.roundE 1 [104, 105] true = r := Option.some.inj hr
        decide +kernel)
    toy_drawn (by decide) (by decide) toyA toyB toy_begin

end Verif.Keydb

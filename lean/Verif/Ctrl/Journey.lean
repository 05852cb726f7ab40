import Verif.Msg.AnyOrder
import Verif.Ctrl.CryptRun
import Verif.Ctrl.Mailbox
import Verif.Ctrl.Fetch
/-
C143: the whole way of a message, from the engine of the sender through the mail of the mix and the
mailbox of the recipient into the database of the recipient. The in-queue is processed
(ctrlengine/msg.go:715-801) with the real envelopes (`Verif.Ctrl.Mailbox`) and the real
`mutecrypt decrypt` (`Verif.Ctrl.CryptRun`), whose sessions change from message to message.
-/
set_option autoImplicit false
namespace Verif.Ctrl.Journey
open Verif.Sql Verif.Msgdb Verif.Ctrl.Mailbox Verif.Ctrl.CryptRun
open Verif.Msg (Link Round UID MemStore Str encrypt decrypt sendAll openStep openAll)

variable {σ : Type} {I : Ids}

/-! ### processing the in-queue -/

/-- A program that decrypts messages with the sessions in `σ`: from the key it may draw and the
message, what the engine hears and the sessions afterwards. -/
abbrev Opener (σ : Type) := Bytes → Bytes → σ → MsgReply × σ

/-- The envelope of the first row (msg.go:727-747): the account of the row has the key (the last 32
bytes of the private key are the public one, msg.go:741-742), the server and the secret. -/
def envelopeReply (M : Mix.Prims) (I : Ids) (db : Db) (q : InFirst) : EnvReply :=
  match db.getAccount I q.myID q.contactID with
  | .error _ => .failed
  | .ok a =>
    match openEnvelope M q.myID (a.privkey.drop 32) a.server a.secret q.msg with
    | .ok r => r
    | _ => .failed

/-- The loop body (msg.go:718-799) with the sessions `s`. `x` is the key `mutecrypt` may draw and
whether a new contact can be looked up. The number says whether `mutecrypt` was called. -/
def liveStep (M : Mix.Prims) (O : Opener σ) (I : Ids) (x : Bytes × Bool) (db : Db) (s : σ) : InStep × σ × Nat :=
  match db.getInQueue with
  | .error _ => (.stop, s, 0)
  | .ok none => (.idle, s, 0)
  | .ok (some q) =>
    if q.envelope then (procEnvelope I db q ⟨envelopeReply M I db q, .failed, false⟩, s, 0)
    else (procMessage I db q ⟨.failed, (O x.1 q.msg s).1, x.2⟩, (O x.1 q.msg s).2, 1)

/-- `procInQueue` (msg.go:715-801) with a bound on the number of iterations: none if it is reached,
otherwise the database, the sessions and whether there was no error. -/
def liveRun (M : Mix.Prims) (O : Opener σ) (I : Ids) : Nat → (Nat → Bytes × Bool) → Db → σ → Option (Db × σ × Bool)
  | 0, _, _, _ => none
  | n + 1, xs, db, s =>
    match liveStep M O I (xs 0) db s with
    | (.idle, s', _) => some (db, s', true)
    | (.stop, s', _) => some (db, s', false)
    | (.next d, s', k) => liveRun M O I n (fun j => xs (j + k)) d s'

/-! ### specification: what the programs are to hear, one message after the other -/

/-- The decryptions of a list of messages, in this order, give the senders and contents `ys`. -/
inductive Heard (O : Opener σ) : (Nat → Bytes × Bool) → List Bytes → σ → List (Bytes × Bytes) → σ → Prop
  | nil (xs : Nat → Bytes × Bool) (s : σ) : Heard O xs [] s [] s
  | cons (xs : Nat → Bytes × Bool) (m : Bytes) (ms : List Bytes) (s s' : σ) (y : Bytes × Bytes) (ys : List (Bytes × Bytes)) :
      (O (xs 0).1 m s).1 = .decrypted y.1 y.2 → Heard O (fun j => xs (j + 1)) ms (O (xs 0).1 m s).2 ys s' → Heard O xs (m :: ms) s (y :: ys) s'

/-! ### lemmas -/

theorem getInQueue_msg {db : Db} (hw : WF I db) {i : Nat} {e : InEntry} {t : Table InEntry} (hq : db.inQueue = (i, e) :: t) {q : InFirst}
    (h : db.getInQueue = .ok (some q)) : q.msg = e.msg := by
  have h0 : firstAsc (fun _ : InEntry => true) db.inQueue = some (i, e) := by
    rw [firstAsc_head hw.inQueue, hq]; rfl
  simp only [Db.getInQueue, h0] at h
  split at h
  · cases h
  · split at h
    · simp only [Except.ok.injEq, Option.some.injEq] at h
      rw [← h]
    · split at h
      · cases h
      · simp only [Except.ok.injEq, Option.some.injEq] at h
        rw [← h]

/-- One row: the envelope is opened, then the message in it is decrypted. -/
theorem live_row (M : Mix.Prims) (O : Opener σ) (hI : I.map [] ≠ some []) {db : Db} (hw : WF I db) (hv : ∀ r ∈ db.contacts, Valid r.2)
    {i : Nat} {e : InEntry} {t : Table InEntry} (hq : db.inQueue = (i, e) :: t) (he : e.envelope = true) {my : Nym} (hn : (e.myID, my) ∈ db.nyms)
    {a : Nat × Account} (ha : first (isAccount e.myID e.contactID) db.accounts = some a) {m sender content : Bytes}
    (ho : openEnvelope M my.mapped (a.2.privkey.drop 32) a.2.server a.2.secret e.msg = .ok (.opened m)) (s : σ) (xs : Nat → Bytes × Bool)
    (hm : (O (xs 0).1 m s).1 = .decrypted sender content) (h0 : sender ≠ []) (hs : I.isMapped sender = true)
    (hk : (first (isContact e.myID sender) db.contacts).isSome = true ∨ (xs 0).2 = true) :
    ∃ db', (∀ n, liveRun M O I (n + 2) xs db s = liveRun M O I n (fun j => xs (j + 1)) db' (O (xs 0).1 m s).2) ∧
      RowDone I db db' t (if blackListed db e.myID sender then none else some ⟨e.myID, sender, e.date, content⟩) := by
  obtain ⟨q, n, h1, hi, h3, h4, h5, h6, h7, h8⟩ := getInQueue_cons hI hw hq
  subst hi
  have hsrt : Sorted ((q.iqIdx, e) :: t) := by rw [← hq]; exact hw.inQueue
  have hqm := getInQueue_msg hw hq h1
  have hnm : q.myID = my.mapped := by
    have g1 := byId_mem hw.nyms h3
    have g2 := byId_mem hw.nyms hn
    rw [g1] at g2
    rw [h4, Option.some.inj g2]
  have hga : db.getAccount I q.myID q.contactID = .ok a.2 := by
    simp only [Db.getAccount, h6, ha]
  have hrep : envelopeReply M I db q = .opened m := by
    unfold envelopeReply
    rw [hga]
    simp only [hqm, hnm, ho]
  have hq1 : (db.setInQueue q.iqIdx m).inQueue = (q.iqIdx, { e with msg := m, envelope := false }) :: t := by
    simp only [Db.setInQueue, hq]; exact updateId_head _ hsrt
  have s1 : liveStep M O I (xs 0) db s = (.next (db.setInQueue q.iqIdx m), s, 0) := by
    simp only [liveStep, h1, h5, he, if_true, hrep, procEnvelope, hga]
  have hw1 := wf_set hw q.iqIdx m
  let D : Nat → InReply := fun _ => ⟨.failed, .decrypted sender content, (xs 0).2⟩
  obtain ⟨d, e1, e2⟩ := message_done hI hw1 (by exact hv) hq1 rfl (D := D) (by
    unfold MessageFine
    exact .inr ⟨hs, hk⟩)
  obtain ⟨q', n', k1, k2, k3, k4, k5, k6, k7, k8⟩ := getInQueue_cons hI hw1 hq1
  have s2 : liveStep M O I (xs 0) (db.setInQueue q.iqIdx m) s = (.next d, (O (xs 0).1 m s).2, 1) := by
    have hm' := getInQueue_msg hw1 hq1 k1
    simp only at hm'
    simp only [procStep, k1, k5, Bool.false_eq_true, if_false] at e1
    simp only [liveStep, k1, k5, Bool.false_eq_true, if_false, hm', hm]
    congr 1
  refine ⟨d, fun n => ?_, ?_⟩
  · show liveRun M O I ((n + 1) + 1) xs db s = _
    rw [liveRun, s1]
    simp only [Nat.add_zero]
    rw [liveRun, s2]
  · have hsame : Same db (db.setInQueue q.iqIdx m) := ⟨rfl, rfl, fun _ _ => rfl, fun _ _ h => h⟩
    have : receivedMsg (blackListed (db.setInQueue q.iqIdx m)) { e with msg := m, envelope := false } (D q.iqIdx).message =
        if blackListed db e.myID sender then none else some ⟨e.myID, sender, e.date, content⟩ := by
      show (if sender = [] then none else _) = _
      rw [if_neg h0]
      rfl
    rw [this] at e2
    exact ⟨e2.wf, e2.valid, hsame.trans e2.same, e2.queue, e2.inbox, e2.others⟩

/-- A queue of envelopes of one account, all of which can be opened: the messages are stored in the
order of the queue. -/
theorem live_all (M : Mix.Prims) (O : Opener σ) (hI : I.map [] ≠ some []) {u v : Nat} {my : Nym} {a : Nat × Account} {sender : Bytes} (h0 : sender ≠ [])
    (hs : I.isMapped sender = true) (ms : List Bytes) : ∀ (t : List (Nat × InEntry)) (db : Db) (s s' : σ) (xs : Nat → Bytes × Bool) (ys : List (Bytes × Bytes)),
    WF I db → (∀ r ∈ db.contacts, Valid r.2) → db.inQueue = t → (u, my) ∈ db.nyms → first (isAccount u v) db.accounts = some a →
    (∀ r ∈ t, r.2.myID = u ∧ r.2.contactID = v ∧ r.2.envelope = true) → t.length = ms.length →
    (∀ (j : Nat) (r : Nat × InEntry) (m : Bytes), t[j]? = some r → ms[j]? = some m →
      openEnvelope M my.mapped (a.2.privkey.drop 32) a.2.server a.2.secret r.2.msg = .ok (.opened m)) →
    Heard O xs ms s ys s' → (∀ y ∈ ys, y.1 = sender) →
    ((first (isContact u sender) db.contacts).isSome = true ∨ ∀ j, (xs j).2 = true) →
    ∃ db', (∀ n, liveRun M O I (n + (2 * t.length + 1)) xs db s = some (db', s', true)) ∧ db'.inQueue = [] ∧
      inbox db'.messages = inbox db.messages ++
        (if blackListed db u sender then [] else (t.zip ys).map fun p => ⟨u, sender, p.1.2.date, p.2.2⟩) ∧
      (vals db'.messages).filter (·.outgoing) = (vals db.messages).filter (·.outgoing) := by
  induction ms with
  | nil =>
    intro t db s s' xs ys hw hv hq hn ha hr hl ho hh hy hk
    obtain rfl : t = [] := List.length_eq_zero_iff.mp hl
    cases hh
    refine ⟨db, fun n => ?_, hq, by simp, rfl⟩
    show liveRun M O I (n + 1) xs db s = _
    simp only [liveRun, liveStep, Db.getInQueue, hq, firstAsc]
  | cons m ms ih =>
    intro t db s s' xs ys hw hv hq hn ha hr hl ho hh hy hk
    cases t with
    | nil => cases hl
    | cons r t =>
      cases hh with
      | cons _ _ _ _ _ y ys h1 h2 =>
        obtain ⟨i, e⟩ := r
        obtain ⟨r1, r2, r3⟩ := hr (i, e) List.mem_cons_self
        simp only at r1 r2 r3
        subst r1; subst r2
        obtain rfl : y.1 = sender := hy y List.mem_cons_self
        obtain ⟨d, g1, g2⟩ := live_row M O hI hw hv hq r3 hn ha (ho 0 (i, e) m rfl rfl) s xs h1 h0 hs
          (hk.imp id fun h => h 0)
        obtain ⟨d', k1, k2, k3, k4⟩ := ih t d _ s' (fun j => xs (j + 1)) ys g2.wf g2.valid g2.queue (by rw [g2.same.nyms]; exact hn)
          (by rw [g2.same.accounts]; exact ha) (fun r hr' => hr r (.tail _ hr')) (by simpa using hl)
          (fun j r m hj hm => ho (j + 1) r m (by simpa using hj) (by simpa using hm)) h2 (fun y hy' => hy y (.tail _ hy'))
          (hk.imp (g2.same.known _ _) fun h j => h (j + 1))
        refine ⟨d', fun n => ?_, k2, ?_, k4.trans g2.others⟩
        · rw [List.length_cons, show n + (2 * (t.length + 1) + 1) = (n + (2 * t.length + 1)) + 2 by omega, g1, k1]
        · rw [k3, g2.inbox, g2.same.black]
          cases blackListed db e.myID y.1 <;> simp

/-! ### the programs with sessions in memory -/

/-- The sessions after `mutecrypt decrypt` (cryptengine/decrypt.go:40-87, msg/decrypt.go:102-582). -/
def decryptStore (P : Msg.Prims) (ids : List UID) (num : UInt64) (fresh enc : Bytes) (st : MemStore) : MemStore :=
  match P.unb64 enc with
  | none => st
  | some b =>
    match Wire.readFirst b with
    | .ok (v, pre, rest) => if v ≠ Wire.version then st else ((decrypt P ⟨ids, pre, rest, num, fresh⟩).run (MemStore.handle P) st).2
    | _ => st

/-- `mutecrypt decrypt` as the engine calls it (msg.go:649-713). -/
def memOpener (P : Msg.Prims) (T : Texts) (L : Link) : Opener MemStore := fun fresh enc st =>
  let x := decryptRun P T [L.bob] L.nB fresh enc st
  (hearDecrypt (stdout x.1) (stderr x.1) x.2, decryptStore P [L.bob] L.nB fresh enc st)

/-- A program that encrypts messages: what the engine hears (the encrypted message and the nym
address) and the sessions afterwards. -/
abbrev Sender (σ : Type) := Round → σ → Option (Bytes × Bytes) × σ

/-- `mutecrypt encrypt` as the engine calls it (msg.go:55-105). -/
def memSender (P : Msg.Prims) (T : Texts) (L : Link) : Sender MemStore := fun r st =>
  let x := encryptRun P T (L.encArgs r) r.rnd st
  (hearEncrypt (stdout x.1) (stderr x.1) x.2, ((encrypt P (L.encArgs r) r.rnd).run (MemStore.handle P) st).2)

/-- The encryption of the messages in the out-queue, one after the other (msg.go:200-260); `none` if
one of them fails. -/
def sendRun (S : Sender σ) : List Round → σ → Option (List (Bytes × Bytes) × σ)
  | [], s => some ([], s)
  | r :: rs, s =>
    match (S r s).1 with
    | none => none
    | some m =>
      match sendRun S rs (S r s).2 with
      | none => none
      | some (ms, s') => some (m :: ms, s')

theorem memOpener_step {P : Msg.Prims} (T : Texts) {L : Link} {fresh enc : Bytes} {B B' : MemStore} {c sender sig : Bytes}
    (h : openStep P L fresh enc B = (some (c, sender, sig), B')) (hs : CryptRun.Plain sender) :
    memOpener P T L fresh enc B = (.decrypted sender c, B') := by
  unfold openStep at h
  split at h
  · cases h
  rename_i b hb
  split at h
  · rename_i v pre rest hf
    split at h
    · rename_i s g B1 hr
      simp only [Prod.mk.injEq, Option.some.injEq] at h
      obtain ⟨⟨rfl, rfl, rfl⟩, rfl⟩ := h
      have hv := version_ok hf hr
      subst hv
      obtain ⟨content, g1, g2⟩ := C122_exact P T [L.bob] L.nB fresh enc b pre rest B B1 s g hb hf hr hs
      unfold memOpener
      refine Prod.ext ?_ ?_
      · show hearDecrypt _ _ _ = _
        rw [g2, g1, List.drop_left]
      · show decryptStore P [L.bob] L.nB fresh enc B = _
        unfold decryptStore
        simp only [hb, hf]
        rw [if_neg (by decide), hr]
    · cases h
  · cases h

theorem heard_mem {P : Msg.Prims} (T : Texts) {L : Link} (xs : Nat → Bytes × Bool) (ms : List Bytes) (B : MemStore) (ys : List (Bytes × Str × Str))
    (hl : ys.length = ms.length) (hs : ∀ y ∈ ys, CryptRun.Plain y.2.1)
    (h : openAll P L (ms.mapIdx fun j m => ((xs j).1, m)) B = ys.map some) :
    ∃ B', Heard (memOpener P T L) xs ms B (ys.map fun y => (y.2.1, y.1)) B' := by
  induction ms generalizing xs B ys with
  | nil =>
    obtain rfl : ys = [] := List.length_eq_zero_iff.mp hl
    exact ⟨B, .nil _ _⟩
  | cons m ms ih =>
    cases ys with
    | nil => cases hl
    | cons y ys =>
      simp only [List.mapIdx_cons, openAll, List.map_cons, List.cons.injEq] at h
      obtain ⟨h1, h2⟩ := h
      have h3 : openStep P L (xs 0).1 m B = (some (y.1, y.2.1, y.2.2), (openStep P L (xs 0).1 m B).2) := Prod.ext h1 rfl
      have h4 := memOpener_step T h3 (hs y List.mem_cons_self)
      obtain ⟨B', g⟩ := ih (fun j => xs (j + 1)) _ ys (by simpa using hl) (fun y hy => hs y (.tail _ hy)) h2
      refine ⟨B', .cons xs m ms B B' _ _ ?_ ?_⟩
      · rw [h4]
      · rw [h4]; exact g

/-! ### the nym address the sender is told -/

/-- The nym address known for the recipient: the one of the session, or of the KeyInit message if
there is no session. -/
def nymOf (P : Msg.Prims) (L : Link) (A : MemStore) : Bytes :=
  match A.states (L.stateKeyA P) with
  | none => A.nyms L.bob.identity
  | some ss => ss.nymAddress

theorem encSession_nym {P : Msg.Prims} {L : Link} {r : Round} {n : UInt64} {A A1 : MemStore} {ss : Msg.State} {nym : Str}
    (h : (Msg.encSession P (L.encArgs r) r.rnd n (L.stateKeyA P)).run (MemStore.handle P) A = (.ok (ss, nym), A1)) :
    nym = nymOf P L A ∧ ss.nymAddress = nym := by
  unfold Msg.encSession at h
  simp only [Msg.Prog.bind_eq] at h
  rw [if_pos (by show Msg.statusOK ≠ _; decide)] at h
  rw [Msg.Prog.run_bind_ok] at h
  obtain ⟨s0, A0, h0, h⟩ := h
  rw [Msg.Prog.run_ask_ok] at h0
  simp only [MemStore.handle, Prod.mk.injEq, Except.ok.injEq] at h0
  obtain ⟨h0, rfl⟩ := h0
  cases s0 with
  | none =>
    simp only at h
    rw [Msg.Prog.run_bind_ok] at h
    obtain ⟨⟨ke, ny⟩, A2, h1, h⟩ := h
    rw [Msg.Prog.run_ask_ok] at h1
    simp only [MemStore.handle, MemStore.getPublicKeyEntry, Prod.mk.injEq] at h1
    obtain ⟨h1, rfl⟩ := h1
    split at h1
    · cases h1
    simp only [Except.ok.injEq, Prod.mk.injEq] at h1
    obtain ⟨-, rfl⟩ := h1
    simp only at h
    rw [Msg.Prog.run_bind_ok] at h; obtain ⟨_, _, -, h⟩ := h
    rw [Msg.Prog.run_bind_ok] at h; obtain ⟨_, _, -, h⟩ := h
    rw [Msg.Prog.run_bind_ok] at h; obtain ⟨_, _, -, h⟩ := h
    simp only [Msg.Prog.run_ret, Prod.mk.injEq, Res.ok.injEq] at h
    obtain ⟨⟨rfl, rfl⟩, -⟩ := h
    exact ⟨by unfold nymOf; rw [h0]; rfl, rfl⟩
  | some s0 =>
    simp only at h
    rw [if_pos (by show Msg.statusOK ≠ _; decide)] at h
    have hn : nymOf P L A = s0.nymAddress := by unfold nymOf; rw [h0]
    split at h
    · rw [Msg.Prog.run_bind_ok] at h; obtain ⟨⟨s1, ke⟩, A2, h1, h⟩ := h
      simp only [Msg.Prog.run_ret, Prod.mk.injEq, Res.ok.injEq] at h
      obtain ⟨⟨rfl, rfl⟩, -⟩ := h
      unfold Msg.setNextSenderSessionPub at h1
      simp only [Msg.Prog.bind_eq] at h1
      rw [Msg.Prog.run_bind_ok] at h1; obtain ⟨_, _, -, h1⟩ := h1
      rw [Msg.Prog.run_bind_ok] at h1; obtain ⟨_, _, -, h1⟩ := h1
      simp only [Msg.Prog.run_ret, Prod.mk.injEq, Res.ok.injEq] at h1
      obtain ⟨⟨rfl, -⟩, -⟩ := h1
      exact ⟨hn.symm, rfl⟩
    · simp only [Msg.Prog.run_ret, Prod.mk.injEq, Res.ok.injEq] at h
      obtain ⟨⟨rfl, rfl⟩, -⟩ := h
      exact ⟨hn.symm, rfl⟩

theorem encrypt_nym {P : Msg.Prims} (hP : P.Good) {L : Link} {uid : UID} (hL : L.OK P uid) {r : Round} (hr : r.OK P uid) {A A' : MemStore} {nym : Str}
    (h : (encrypt P (L.encArgs r) r.rnd).run (MemStore.handle P) A = (.ok nym, A')) :
    nym = nymOf P L A ∧ nymOf P L A' = nymOf P L A := by
  obtain ⟨fp, tp, ss, rp, A1, A2, A3, mk, e1, e2, e3, e4, e5, e6, e7, e8, e9, rfl⟩ := Msg.encrypt_ok hP hr.rnd rfl h
  have h1 : fp = P.dhPub L.aPriv := by
    have : (L.encArgs r).from.pubKey = Msg.initDHKey P L.aPriv := hL.a
    rw [this, Msg.initDHKey_pub32 P hP] at e1; exact (Option.some.inj e1).symm
  have h2 : tp = P.dhPub L.bPriv := by
    have : (L.encArgs r).to.pubKey = (Msg.initDHKey P L.bPriv).public := by
      simp only [Link.encArgs, hL.b]
    rw [this, Msg.initDHKey_public_pub32 P hP] at e2; exact (Option.some.inj e2).symm
  subst h1 h2
  obtain ⟨g1, g2⟩ := encSession_nym e4
  refine ⟨g1, ?_⟩
  show (match (A3.setState (L.stateKeyA P) _).states (L.stateKeyA P) with | none => _ | some ss => ss.nymAddress) = _
  rw [show (A3.setState (L.stateKeyA P) { ss with senderMessageCount := ss.senderMessageCount + 1 }).states (L.stateKeyA P) =
    some { ss with senderMessageCount := ss.senderMessageCount + 1 } from Msg.upd_same _ _ _]
  exact g2.trans g1

/-- The engine of the sender gets what `Encrypt` wrote, with the nym address of the recipient. -/
theorem sendRun_mem {P : Msg.Prims} (hP : P.Good) (T : Texts) {L : Link} {uid : UID} (hL : L.OK P uid) (rs : List Round) (hrs : ∀ r ∈ rs, r.OK P uid)
    (A A' : MemStore) (hn : CryptRun.PlainNym (nymOf P L A)) (ws : List Str) (h : sendAll P L rs A = some (ws, A')) :
    sendRun (memSender P T L) rs A = some (ws.map fun w => (w, nymOf P L A), A') := by
  induction rs generalizing A ws with
  | nil =>
    simp only [sendAll, Option.some.injEq, Prod.mk.injEq] at h
    obtain ⟨rfl, rfl⟩ := h
    rfl
  | cons r rs ih =>
    rw [sendAll] at h
    generalize hrun : (encrypt P (L.encArgs r) r.rnd).run (MemStore.handle P) A = x at h
    obtain ⟨res, A2⟩ := x
    cases res with
    | err e => simp at h
    | panic => simp at h
    | ok nym =>
      simp only at h
      obtain ⟨g1, g2⟩ := encrypt_nym hP hL (hrs r (by simp)) hrun
      have hS : memSender P T L r A = (some (A2.out.drop A.out.length, nym), A2) := by
        have hE : encryptRun P T (L.encArgs r) r.rnd A = ([.out (A2.out.drop A.out.length), .err (txtNym ++ 9 :: nym ++ [10])], true) := by
          unfold encryptRun
          rw [hrun]
        unfold memSender
        rw [hE, hrun]
        simp only [stdout, stderr, List.append_nil]
        rw [hearEncrypt_plain _ (by rw [g1]; exact hn)]
      generalize hrest : sendAll P L rs A2 = y at h
      cases y with
      | none => simp at h
      | some y =>
        obtain ⟨ws', A3⟩ := y
        simp only [Option.some.injEq, Prod.mk.injEq] at h
        obtain ⟨rfl, rfl⟩ := h
        have := ih (fun r hr => hrs r (by simp [hr])) A2 (by rw [g2]; exact hn) ws' hrest
        unfold sendRun
        simp only [hS, this, List.map_cons, g1, g2]

/-! ### the way through the mix -/

open Verif.Ctrl.Deliver (World Opens create create_opens)
open Verif.Mix (MAddr KeyFunc Hdr receive send newRelay)
open Verif.Util (readMailBody writeMailBody)


/-- What the sender and the mix use for one message: their clocks, the delays, the token and the
random values. -/
structure Trip where
  c1 : Int
  c2 : Int
  min : Int
  max : Int
  token : Bytes
  revoke : Bytes
  e1 : Bytes
  n1 : Bytes
  e2 : Bytes

/-- The encrypted message `enc` is put into an envelope for the nym address `na` (protoengine/
create.go:17-57), the mail in it is read by the mix with the keys `look` and sent on (mix/mixcrypt/
clientmix.go:126-177, mix/mixcrypt/mixclient.go:14-20) as `text` to the mailbox `to`, encoded for the fetching client (protoengine/fetch.go:77-83). -/
def Travels (W : World) (look : KeyFunc) (na enc : Bytes) (x : Trip) (text to : Bytes) : Prop :=
  ∃ env mo body e rs out,
    create W.P W.utf8 x.c1 W.head W.sender W.ca x.revoke x.e1 x.n1 x.min x.max x.token na enc = some env ∧ env.length < 2 ^ 31 ∧
    Opens W.utf8 env mo ∧ mo.message = some (W.head mo.to_ ++ body) ∧ readMailBody body = .ok e ∧
    receive W.P x.c2 look e = .ok rs ∧ send W.P x.e2 rs = .ok (out, to) ∧ text = Base64.encode out

/-- The address has not expired yet, and the header of the relay message has the sizes for which
the mix is made (C26). -/
structure Trip.Fine (x : Trip) (p : Params) (na : Bytes) : Prop where
  nonce : x.n1.length = 32
  sent : x.c1 ≤ p.expire
  mixed : x.c2 ≤ p.expire
  header : ∀ t b, Base64.decode x.token = some t → Base64.decode na = some b →
    (Hdr.forRelay ⟨0, x.min, x.max, some t, [], none⟩ b x.revoke).Plain ∧ (Hdr.forRelay ⟨0, x.min, x.max, some t, [], none⟩ b x.revoke).Short

theorem travels_opens {W : World} (hP : W.P.Good) {mixes : List MAddr} {p : Params} (hp : (p.template []).Fits) {my pub server : Bytes} {c0 : Int} {r : Nat}
    {e0 n0 ma na : Bytes} (hn0 : n0.length = 32) (hnew : newNymAddress W.P c0 true true (some mixes) p my pub server r e0 n0 = .ok (ma, na))
    {look : KeyFunc} (hlook : ∀ m ∈ mixes, ∃ k, m.pubkey = W.P.pub k ∧ look (W.P.pub k) = some k)
    {x : Trip} (hx : x.Fine p na) {msg : Bytes} (hm : 4096 ≤ msg.length ∧ msg.length ≤ 65536) {text to : Bytes}
    (h : Travels W look na (Base64.encode msg) x text to) :
    openEnvelope W.P my pub server p.secret text = .ok (.opened (Base64.encode msg)) ∧
      to = Util.hex pub ++ [64] ++ shortServer server ++ Mix.domain := by
  obtain ⟨env, mo, body, e, rs, out, hc, hl, ho, hmo, hb, hr, hs, rfl⟩ := h
  obtain ⟨m, t, b, e', to', d1, d2, d3, d4, d5⟩ := create_opens hc hl
  rw [Base64.decode_encode] at d1
  cases d1
  rcases d5 with ⟨mo', o1, o2, o3, o4⟩ | rfl
  · have hmm : mo' = mo := by
      obtain ⟨a1, a2, a3, -⟩ := o1
      obtain ⟨b1, b2, b3, -⟩ := ho
      rw [a2] at b2
      cases b2
      exact a3.symm.trans b3
    subst hmm
    rw [o4, o2, Option.some.injEq, List.append_cancel_left_eq] at hmo
    subst hmo
    have he : e' = e := by
      rw [Util.C31_mail_body_round_trip] at hb
      split at hb
      · cases hb
      · exact Res.ok.inj hb
    subst he
    obtain ⟨mixes', hk, m, hmem, hrel⟩ := delivered W.P hP true true (some mixes) p hp my my pub server c0 x.c1 x.c2 r e0 n0 ma na b hn0 hnew d3
      ⟨0, x.min, x.max, some t, [], none⟩ msg x.revoke x.e1 x.n1 hx.nonce hx.sent hx.mixed (hx.header t b d2 d3).1 (hx.header t b d2 d3).2 hm
    cases hk
    obtain ⟨k, k1, k2⟩ := hlook m hmem
    obtain ⟨e2, rs', g1, g2, g3⟩ := hrel look k k1 k2
    rw [d4] at g1
    cases g1
    rw [hr] at g2
    cases g2
    obtain ⟨out', g4, g5⟩ := g3 x.e2
    rw [hs] at g4
    cases g4
    rw [if_pos rfl] at g5
    exact ⟨g5, rfl⟩
  · obtain ⟨a1, a2, a3, a4⟩ := ho
    exfalso
    have : Base64.decode [] = some [] := rfl
    rw [this] at a2
    cases a2
    rw [← a3] at a4
    exact absurd (a4.symm.trans (show (Mix.Out.unmarshal W.utf8 []).resend = false from rfl)) (by decide)

/-! ### the fetch keeps the account -/

def SameKeys (a b : Account) : Prop := a.privkey = b.privkey ∧ a.server = b.server ∧ a.secret = b.secret

theorem keys_step {db : Db} {my c : Bytes} {a : Account} (h : db.getAccount I my c = .ok a) (op : Op)
    (ho : (∃ x, op = .addCache my c x) ∨ (∃ x, op = .removeCache my c x) ∨ (∃ t x, op = .addInQueue my c t x) ∨ ∃ t, op = .setAccountLastMsg my c t) :
    ∃ a', (db.step I op).getAccount I my c = .ok a' ∧ SameKeys a' a ∧ (db.step I op).messages = db.messages ∧ (db.step I op).contacts = db.contacts := by
  have same : ∀ d : Db, d.nyms = db.nyms → d.contacts = db.contacts → d.accounts = db.accounts → d.getAccount I my c = .ok a := by
    intro d h1 h2 h3
    rw [← h]
    unfold Db.getAccount Db.pair Db.nymUID Db.contactUID
    rw [h1, h2, h3]
  unfold Db.step
  cases he : db.apply I op with
  | error e => exact ⟨a, h, ⟨rfl, rfl, rfl⟩, rfl, rfl⟩
  | ok d =>
    simp only
    rcases ho with ⟨x, rfl⟩ | ⟨x, rfl⟩ | ⟨t, x, rfl⟩ | ⟨t, rfl⟩
    · simp only [Db.apply, Db.addCache] at he
      split at he
      · cases he
      split at he
      · cases he
      cases he
      exact ⟨a, same _ rfl rfl rfl, ⟨rfl, rfl, rfl⟩, rfl, rfl⟩
    · simp only [Db.apply, Db.removeCache] at he
      split at he
      · cases he
      split at he
      · cases he
      split at he
      · cases he
      cases he
      exact ⟨a, same _ rfl rfl rfl, ⟨rfl, rfl, rfl⟩, rfl, rfl⟩
    · simp only [Db.apply, Db.addInQueue] at he
      split at he
      · cases he
      cases he
      exact ⟨a, same _ rfl rfl rfl, ⟨rfl, rfl, rfl⟩, rfl, rfl⟩
    · simp only [Db.apply, Db.setAccountLastMsg] at he
      split at he
      · cases he
      rename_i u v hp
      cases he
      unfold Db.getAccount at h
      rw [hp] at h
      simp only at h
      split at h
      · cases h
      rename_i r hr
      cases h
      have hp2 : ({ db with accounts := update (isAccount u v) (fun a => { a with lastMsgTime := t }) db.accounts } : Db).pair I my c = .ok (u, v) := hp
      simp only [Db.getAccount, hp2]
      rw [first_update _ _ (fun a : Account => { a with lastMsgTime := t }) _ fun a _ => rfl, hr]
      simp only [Option.map_some]
      refine ⟨_, rfl, ?_, trivial, trivial⟩
      split <;> exact ⟨rfl, rfl, rfl⟩

theorem keys_run {my c : Bytes} (ops : List Op) (ho : ∀ op ∈ ops, (∃ x, op = .addCache my c x) ∨ (∃ x, op = .removeCache my c x) ∨
    (∃ t x, op = .addInQueue my c t x) ∨ ∃ t, op = .setAccountLastMsg my c t) {db : Db} {a : Account} (h : db.getAccount I my c = .ok a) :
    ∃ a', (db.run I ops).getAccount I my c = .ok a' ∧ SameKeys a' a ∧ (db.run I ops).messages = db.messages ∧ (db.run I ops).contacts = db.contacts := by
  induction ops generalizing db a with
  | nil => exact ⟨a, h, ⟨rfl, rfl, rfl⟩, rfl, rfl⟩
  | cons op ops ih =>
    obtain ⟨a1, h1, k1, m1, c1⟩ := keys_step h op (ho op (.head _))
    obtain ⟨a2, h2, k2, m2, c2⟩ := ih (fun op hop => ho op (.tail _ hop)) h1
    exact ⟨a2, h2, ⟨k2.1.trans k1.1, k2.2.1.trans k1.2.1, k2.2.2.trans k1.2.2⟩, m2.trans m1, c2.trans c1⟩

theorem fetchRun_ops {my c : Bytes} (cache : List Bytes) (l : List Mail) : ∀ op ∈ fetchRun my c cache l, (∃ x, op = .addCache my c x) ∨
    (∃ x, op = .removeCache my c x) ∨ (∃ t x, op = .addInQueue my c t x) ∨ ∃ t, op = .setAccountLastMsg my c t := by
  intro op hop
  unfold fetchRun at hop
  rcases List.mem_append.mp hop with hop | hop
  · induction l with
    | nil => cases hop
    | cons m l ih =>
      rw [fetchOps] at hop
      split at hop
      · rw [List.mem_singleton] at hop; exact .inr (.inl ⟨_, hop⟩)
      · rcases List.mem_cons.mp hop with h | hop
        · exact .inl ⟨_, h⟩
        · rcases List.mem_cons.mp hop with h | hop
          · exact .inr (.inr (.inl ⟨_, _, h⟩))
          · exact ih (List.mem_append_left _ hop) hop
  · cases l with
    | nil => cases hop
    | cons m l =>
      rw [lastOps] at hop
      split at hop
      · cases hop
      split at hop
      · rw [List.mem_singleton] at hop; exact .inr (.inr (.inr ⟨_, hop⟩))
      · cases hop

/-! ### sizes and texts -/

theorem messageBytes_length {P : Msg.Prims} (hP : P.Good) {rnd : Msg.Rnd} (hr : rnd.Good) {h : Msg.Header} (hh : (P.marshal h).length = 7152) (rp mk : Bytes)
    (sk : Option Bytes) {content : Bytes} (hc : content.length ≤ Msg.maxContentLength) :
    (Msg.messageBytes P rnd h rp mk sk content).length = 49152 := by
  unfold Msg.messageBytes
  rw [List.length_append, List.length_append, Msg.pre_length P hP, Msg.encBody_length P hP mk rnd hr sk content hc, Msg.outer_length]
  simp only [Wire.newOuter, List.length_append, Wire.be16_length, hr.nonce_len, hP.box_len, hh]

theorem enc6_plain : ∀ n, n < 64 → Transfer.isBlank (Base64.enc6 n) = false := by decide

theorem encode_plain (b : Bytes) : ∀ c ∈ Base64.encode b, Transfer.isBlank c = false := by
  induction b using Base64.encode.induct with
  | case1 => simp [Base64.encode]
  | case2 x =>
    have := x.toNat_lt
    simp only [Base64.encode, List.mem_cons, List.not_mem_nil, or_false, forall_eq_or_imp, forall_eq]
    exact ⟨enc6_plain _ (by omega), enc6_plain _ (by omega), rfl, rfl⟩
  | case3 x y =>
    have := x.toNat_lt
    have := y.toNat_lt
    simp only [Base64.encode, List.mem_cons, List.not_mem_nil, or_false, forall_eq_or_imp, forall_eq]
    exact ⟨enc6_plain _ (by omega), enc6_plain _ (by omega), enc6_plain _ (by omega), rfl⟩
  | case4 x y z rest ih =>
    have := x.toNat_lt
    have := y.toNat_lt
    have := z.toNat_lt
    simp only [Base64.encode, List.mem_cons, forall_eq_or_imp]
    exact ⟨enc6_plain _ (by omega), enc6_plain _ (by omega), enc6_plain _ (by omega), enc6_plain _ (by omega), ih⟩

theorem plainNym_encode {b : Bytes} (h : b ≠ []) : CryptRun.PlainNym (Base64.encode b) := by
  have hp := encode_plain b
  have hl := Base64.encode_length b
  have : 0 < b.length := List.length_pos_iff.mpr h
  refine ⟨fun h9 => absurd (hp 9 h9) (by decide), ?_⟩
  have hne : Base64.encode b ≠ [] := by
    intro h0
    rw [h0] at hl
    simp only [List.length_nil] at hl
    omega
  exact ⟨_, _, (List.dropLast_concat_getLast hne).symm, hp _ (List.getLast_mem hne)⟩

/-! ### C143 -/

theorem zip_rows {α : Type} (u v : Nat) (sender : Bytes) (arr : List α) (mail : α → Mail) (f : α → Bytes × Bytes) : ∀ (t : List (Nat × InEntry)),
    t.map Prod.snd = arr.map (fun x => row u v (mail x)) →
    ((t.zip (arr.map f)).map fun p => (⟨u, sender, p.1.2.date, p.2.2⟩ : Received)) = arr.map fun x => ⟨u, sender, (mail x).time, (f x).2⟩ := by
  induction arr with
  | nil => intro t h; cases t with | nil => rfl | cons _ _ => simp at h
  | cons x arr ih =>
    intro t h
    cases t with
    | nil => simp at h
    | cons r t =>
      simp only [List.map_cons, List.cons.injEq] at h
      simp only [List.map_cons, List.zip_cons_cons, ih t h.2, h.1]
      rfl

theorem map_mapIdx' {α β γ : Type} (l : List α) (f : Nat → α → β) (g : β → γ) (h : α → γ) (hgh : ∀ j x, g (f j x) = h x) : (l.mapIdx f).map g = l.map h := by
  apply List.ext_getElem?
  intro i
  simp only [List.getElem?_map, List.getElem?_mapIdx, Option.map_map]
  cases l[i]? with
  | none => rfl
  | some x => simp [hgh]

theorem mapIdx_map' {α β γ : Type} (l : List α) (f : α → β) (g : Nat → β → γ) : (l.map f).mapIdx g = l.mapIdx fun j x => g j (f x) := by
  apply List.ext_getElem?
  intro i
  simp only [List.getElem?_map, List.getElem?_mapIdx, Option.map_map]
  rfl

/-- The in-queue after a fetch: the envelopes of the new mails, which can be opened. -/
theorem after_fetch {ι : Type} (M : Mix.Prims) {my c : Bytes} {ops : List Op} {box seen : List Mail} (hist : History I my c ops box seen) (hops : ∀ op ∈ ops, ValidType op)
    (hempty : (Db.new.run I ops).inQueue = []) {u v : Nat} (hpair : (Db.new.run I ops).pair I my c = .ok (u, v))
    {a : Account} (ha : (Db.new.run I ops).getAccount I my c = .ok a) {cache : List Bytes} (hcache : (Db.new.run I ops).getCache I my c = .ok cache)
    {l : List Mail} (hl : Listed box a.lastMsgTime l) (arr : List ι) (mail : ι → Mail) (enc : ι → Bytes) (hbox : box = arr.map mail ++ seen)
    (ho : ∀ x ∈ arr, openEnvelope M my (a.privkey.drop 32) a.server a.secret (mail x).text = .ok (.opened (enc x))) {db1 : Db}
    (hdb1 : Db.new.run I (ops ++ fetchRun my c cache l) = db1) :
    ∃ (nym : Nym) (ra : Nat × Account), WF I db1 ∧ (∀ r ∈ db1.contacts, Valid r.2) ∧ (u, nym) ∈ db1.nyms ∧ first (isAccount u v) db1.accounts = some ra ∧
      db1.inQueue.map Prod.snd = arr.map (fun x => row u v (mail x)) ∧
      (∀ r ∈ db1.inQueue, r.2.myID = u ∧ r.2.contactID = v ∧ r.2.envelope = true) ∧
      (∀ (j : Nat) (r : Nat × InEntry) (m : Bytes), db1.inQueue[j]? = some r → (arr.map enc)[j]? = some m →
        openEnvelope M nym.mapped (ra.2.privkey.drop 32) ra.2.server ra.2.secret r.2.msg = .ok (.opened m)) ∧
      db1.messages = (Db.new.run I ops).messages ∧ db1.contacts = (Db.new.run I ops).contacts := by
  -- the database after the fetch
  obtain ⟨new, ids, keeps⟩ := history_keeps hist
  have hids := keeps.fetched.cache
  rw [hcache] at hids
  cases hids
  have hlast : a.lastMsgTime = lastOf seen := by
    obtain ⟨a', h1, h2⟩ := keeps.fetched.account
    rw [ha] at h1
    cases h1
    exact h2
  rw [hlast] at hl
  obtain ⟨ids', done, -, -⟩ := keeps_fetch keeps l hl hpair
  have hnewarr : new = arr.map mail := by
    have := keeps.split.symm.trans hbox
    exact List.append_cancel_right this
  obtain ⟨a1, ha1, hkeys, hmsgs, hcont⟩ := keys_run (I := I) _ (fetchRun_ops cache l) ha
  rw [← run_append] at ha1 hmsgs hcont
  have hq := done.queue
  rw [hempty, hnewarr] at hq
  rw [hdb1] at hq ha1 hmsgs hcont
  have hw : WF I db1 := by rw [← hdb1]; exact wf_run wf_new _
  have hv : ∀ r ∈ db1.contacts, Valid r.2 := by
    rw [hcont]
    exact valid_run (by intro r hr; cases hr) ops hops
  -- the account
  have hp1 := done.pair
  rw [hdb1] at hp1
  unfold Db.getAccount at ha1
  rw [hp1] at ha1
  simp only at ha1
  split at ha1
  · cases ha1
  rename_i ra hra
  cases ha1
  obtain ⟨nym, hn1, hn2⟩ : ∃ nym : Nym, (u, nym) ∈ db1.nyms ∧ nym.mapped = my := by
    unfold Db.pair at hp1
    split at hp1
    · cases hp1
    split at hp1
    · cases hp1
    split at hp1
    · cases hp1
    rename_i u' hu
    have huu : u' = u := by
      split at hp1
      · cases hp1; rfl
      · split at hp1
        · cases hp1
        · cases hp1; rfl
    subst huu
    unfold Db.nymUID at hu
    rw [Option.map_eq_some_iff] at hu
    obtain ⟨⟨i, n⟩, h1, rfl⟩ := hu
    obtain ⟨g1, g2⟩ := first_mem h1
    exact ⟨n, g1, by simpa using g2⟩
  have hqm : db1.inQueue.map Prod.snd = arr.map fun x => row u v (mail x) := by
    rw [List.map_map] at hq
    exact hq
  have hqi : ∀ (j : Nat) (r : Nat × InEntry), db1.inQueue[j]? = some r → ∃ x, arr[j]? = some x ∧ r.2 = row u v (mail x) := by
    intro j r hj
    have := congrArg (·[j]?) hqm
    simp only [List.getElem?_map, hj, Option.map_some] at this
    cases hx : arr[j]? with
    | none => rw [hx] at this; cases this
    | some x =>
      rw [hx] at this
      exact ⟨x, rfl, Option.some.inj this⟩
  refine ⟨nym, ra, hw, hv, hn1, hra, hqm, ?_, ?_, hmsgs, hcont⟩
  · intro r hr
    obtain ⟨j, hj⟩ := List.getElem?_of_mem hr
    obtain ⟨x, -, hx⟩ := hqi j r hj
    rw [hx]
    exact ⟨rfl, rfl, rfl⟩
  · intro j r m hj hm
    obtain ⟨x, hx, hr⟩ := hqi j r hj
    rw [List.getElem?_map, hx, Option.map_some, Option.some.injEq] at hm
    subst hm
    rw [hr, hn2, hkeys.1, hkeys.2.1, hkeys.2.2]
    exact ho x (List.mem_of_getElem? hx)

/-- The mail with an encrypted message is opened by the recipient's client. -/
theorem sent_opens {P : Msg.Prims} (hP : P.Good) (hb64 : ∀ b, P.b64 b = Base64.encode b) {L : Link} {uid : UID} {rs : List Round} (hrs : ∀ r ∈ rs, r.OK P uid)
    {ws : List Str} (hlen : ws.length = rs.length)
    (hsent : ∀ i r, rs[i]? = some r → Msg.Sent P L rs (Msg.sessOf rs) (Msg.rootOf P L (Msg.sessOf rs)) i r (ws.getD i []))
    {W : World} (hW : W.P.Good) {mixes : List MAddr} {p : Params} (hp : (p.template []).Fits) {a : Account} (hsec : p.secret = a.secret) {my : Bytes} {c0 : Int} {r0 : Nat}
    {e0 n0 ma na : Bytes} (hn0 : n0.length = 32) (hnew : newNymAddress W.P c0 true true (some mixes) p my (a.privkey.drop 32) a.server r0 e0 n0 = .ok (ma, na))
    {look : KeyFunc} (hlook : ∀ m ∈ mixes, ∃ k, m.pubkey = W.P.pub k ∧ look (W.P.pub k) = some k) {ny : Bytes} (hny : ny = na) {x : Nat × Trip × Mail}
    (h : ∃ m to, (ws.map fun w => (w, ny))[x.1]? = some m ∧ x.2.1.Fine p m.2 ∧ Travels W look m.2 m.1 x.2.1 x.2.2.text to) :
    openEnvelope W.P my (a.privkey.drop 32) a.server a.secret x.2.2.text = .ok (.opened (ws.getD x.1 [])) := by
  subst hny
  obtain ⟨m, to, t1, t2, t3⟩ := h
  have hi : x.1 < rs.length := by
    have := (List.getElem?_eq_some_iff.mp t1).1
    simpa [hlen] using this
  obtain ⟨ss, -, -, s1, s2, s3⟩ := hsent x.1 _ (List.getElem?_eq_getElem hi)
  rw [List.getElem?_map] at t1
  have hwi : ws[x.1]? = some (ws.getD x.1 []) := by
    rw [List.getD_eq_getElem?_getD]
    cases hws : ws[x.1]? with
    | none => exact absurd hi (by have := List.getElem?_eq_none_iff.mp hws; omega)
    | some w => rfl
  rw [hwi, Option.map_some, Option.some.injEq] at t1
  subst t1
  rw [← hsec]
  simp only at t2 t3
  rw [s3, hb64] at t3 ⊢
  refine (travels_opens hW hp hn0 hnew hlook t2 ?_ t3).1
  rw [messageBytes_length hP (hrs _ (List.getElem_mem _)).rnd s1 _ _ _ s2]
  decide

/-- A fetch and the processing of the in-queue, with any program that decrypts: what it gives is stored. -/
theorem stored_all {ι : Type} (M : Mix.Prims) (O : Opener σ) (hI : I.map [] ≠ some []) {my c : Bytes} {ops : List Op} {box seen : List Mail}
    (hist : History I my c ops box seen) (hops : ∀ op ∈ ops, ValidType op)
    (hempty : (Db.new.run I ops).inQueue = []) {u v : Nat} (hpair : (Db.new.run I ops).pair I my c = .ok (u, v))
    {a : Account} (ha : (Db.new.run I ops).getAccount I my c = .ok a) {cache : List Bytes} (hcache : (Db.new.run I ops).getCache I my c = .ok cache)
    {l : List Mail} (hl : Listed box a.lastMsgTime l) (arr : List ι) (mail : ι → Mail) (enc : ι → Bytes) (hbox : box = arr.map mail ++ seen)
    (ho : ∀ x ∈ arr, openEnvelope M my (a.privkey.drop 32) a.server a.secret (mail x).text = .ok (.opened (enc x)))
    {sender : Bytes} (h0 : sender ≠ []) (hmap : I.isMapped sender = true) {xs : Nat → Bytes × Bool}
    (hknown : (first (isContact u sender) (Db.new.run I ops).contacts).isSome = true ∨ ∀ j, (xs j).2 = true)
    (text : ι → Bytes) {s s' : σ} (hheard : Heard O xs (arr.map enc) s (arr.map fun x => (sender, text x)) s') :
    ∃ db', (∀ n, liveRun M O I (n + (2 * arr.length + 1)) xs (Db.new.run I (ops ++ fetchRun my c cache l)) s = some (db', s', true)) ∧
      db'.inQueue = [] ∧
      inbox db'.messages = inbox (Db.new.run I ops).messages ++
        (if blackListed (Db.new.run I ops) u sender then [] else arr.map fun x => ⟨u, sender, (mail x).time, text x⟩) ∧
      (vals db'.messages).filter (·.outgoing) = (vals (Db.new.run I ops).messages).filter (·.outgoing) := by
  generalize hdb1 : Db.new.run I (ops ++ fetchRun my c cache l) = db1
  obtain ⟨nym, ra, hw, hv, hn1, hra, hqm, hrow, hoj, hmsgs, hcont⟩ := after_fetch M hist hops hempty hpair ha hcache hl arr mail enc hbox ho hdb1
  have hql : db1.inQueue.length = arr.length := by
    have := congrArg List.length hqm
    simpa using this
  obtain ⟨db', k1, k2, k3, k4⟩ := live_all (I := I) M O hI (u := u) (v := v) (my := nym) (a := ra) (sender := sender) h0 hmap
    (arr.map enc) db1.inQueue db1 s s' xs _ hw hv rfl hn1 hra hrow (by rw [hql, List.length_map]) hoj
    hheard
    (by
      intro y hy
      obtain ⟨x, -, rfl⟩ := List.mem_map.mp hy
      rfl)
    (by rw [hcont]; exact hknown)
  refine ⟨db', fun n => ?_, k2, ?_, ?_⟩
  · rw [← hql]; exact k1 n
  · rw [k3, hmsgs]
    have hbl : blackListed db1 u sender = blackListed (Db.new.run I ops) u sender := by
      unfold blackListed
      rw [hcont]
    rw [hbl]
    congr 1
    split
    · rfl
    · exact zip_rows u v sender arr mail _ db1.inQueue hqm
  · rw [k4, hmsgs]

/-- **C143** The whole way of a batch of messages. A sender who knows a nym address that the
recipient made for an account, and who has never written to the recipient before, can encrypt a
batch of messages. If the mails with some of them are read by a mix before the address expires and
what the mix sends on reaches the mailbox, then, in whatever order it did, the next fetch and the
processing of the in-queue put into the message database exactly the messages the sender wrote,
each once, with the sender's name and the time of arrival, and the in-queue is empty; if the sender
is on the black list, nothing is stored. Missing: messages beyond the first batch of keys that need
more than 301 further ones (see `C142_newest_first_violated`) and interruptions. -/
theorem C143_arrives_partial {P : Msg.Prims} (hP : P.Good) (hb64 : ∀ b, P.b64 b = Base64.encode b) (T : Texts)
    (hparse : ∀ h : Msg.Header, h.Clean → (P.marshal h).length = 7152 → P.parse (P.marshal h) = some h)
    (L : Link) (uid : UID) (hL : L.OK P uid) (rs : List Round) (hrs : ∀ r ∈ rs, r.OK P uid) (hfit : ∀ r ∈ rs, r.Fits P L) (hd : Msg.FirstDifferent P L rs)
    (hk : rs.length < 2 ^ 63) (A B : MemStore) (hS : L.Start P A B)
    (W : World) (hW : W.P.Good) (hI : I.map [] ≠ some [])
    (my c : Bytes) (ops : List Op) (box seen : List Mail) (hist : History I my c ops box seen) (hops : ∀ op ∈ ops, ValidType op)
    (hempty : (Db.new.run I ops).inQueue = []) (u v : Nat) (hpair : (Db.new.run I ops).pair I my c = .ok (u, v))
    (a : Account) (ha : (Db.new.run I ops).getAccount I my c = .ok a) (cache : List Bytes) (hcache : (Db.new.run I ops).getCache I my c = .ok cache)
    (l : List Mail) (hl : Listed box a.lastMsgTime l)
    (mixes : List MAddr) (p : Params) (hp : (p.template []).Fits) (hsec : p.secret = a.secret) (c0 : Int) (r0 : Nat) (e0 n0 ma : Bytes) (hn0 : n0.length = 32)
    (hnew : newNymAddress W.P c0 true true (some mixes) p my (a.privkey.drop 32) a.server r0 e0 n0 = .ok (ma, A.nyms L.bob.identity))
    (look : KeyFunc) (hlook : ∀ m ∈ mixes, ∃ k, m.pubkey = W.P.pub k ∧ look (W.P.pub k) = some k)
    (hplain : CryptRun.Plain L.alice.identity) (h0 : L.alice.identity ≠ []) (hmap : I.isMapped L.alice.identity = true)
    (xs : Nat → Bytes × Bool)
    (hknown : (first (isContact u L.alice.identity) (Db.new.run I ops).contacts).isSome = true ∨ ∀ j, (xs j).2 = true) :
    ∃ ms A', sendRun (memSender P T L) rs A = some (ms, A') ∧ ms.length = rs.length ∧
      ∀ arr : List (Nat × Trip × Mail), box = arr.map (·.2.2) ++ seen → (arr.map (·.1)).Nodup →
        (∀ x ∈ arr, x.1 < (Msg.effKeys L.nB).toNat ∨ Msg.roundUp x.1 (Msg.effKeys L.nB).toNat ≤ 301) →
        (∀ x ∈ arr.head?, ∀ r ∈ rs[x.1]?, Msg.Apart P L rs r (xs 0).1) →
        (∀ x ∈ arr, ∃ m to, ms[x.1]? = some m ∧ x.2.1.Fine p m.2 ∧ Travels W look m.2 m.1 x.2.1 x.2.2.text to) →
        ∃ db' B', (∀ n, liveRun W.P (memOpener P T L) I (n + (2 * arr.length + 1)) xs (Db.new.run I (ops ++ fetchRun my c cache l)) B = some (db', B', true)) ∧
          db'.inQueue = [] ∧
          inbox db'.messages = inbox (Db.new.run I ops).messages ++
            (if blackListed (Db.new.run I ops) u L.alice.identity then []
             else arr.map fun x => ⟨u, L.alice.identity, x.2.2.time, (rs[x.1]?.map (·.content)).getD []⟩) ∧
          (vals db'.messages).filter (·.outgoing) = (vals (Db.new.run I ops).messages).filter (·.outgoing) := by
  obtain ⟨ws, A', hsend⟩ := Msg.sendAll_succeeds hP hL rs hrs hfit hd hk A B hS
  obtain ⟨hlen, hsent⟩ := Msg.sendAll_sent hP hL rs hrs hd hk A B A' hS ws hsend
  have hnym : nymOf P L A = A.nyms L.bob.identity := by unfold nymOf; rw [hS.stA]
  have hpn : CryptRun.PlainNym (nymOf P L A) := by
    obtain ⟨_, _, _, _, b, ad, _, _, _, h4, _, h6⟩ := newNymAddress_ok W.P c0 true true (some mixes) p my _ _ r0 e0 n0 ma _ hnew
    rw [hnym, h6]
    refine plainNym_encode fun hb => ?_
    rw [hb] at h4
    cases h4
  refine ⟨_, A', sendRun_mem hP T hL rs hrs A A' hpn ws hsend, by simp [hlen], ?_⟩
  intro arr hbox hnd hnear hfirst htr
  -- what the messages are
  have hin : ∀ x ∈ arr, x.1 < rs.length := by
    intro x hx
    obtain ⟨m, to, h1, -, -⟩ := htr x hx
    have := (List.getElem?_eq_some_iff.mp h1).1
    simpa [hlen] using this
  -- the openings
  have hopen := Msg.C142_any_order_partial hP L uid hL hparse rs hrs hd hk A B A' hS ws hsend (arr.mapIdx fun j x => (x.1, (xs j).1))
    (by intro y hy; obtain ⟨j, hj, rfl⟩ := List.mem_mapIdx.mp hy; exact hin _ (List.getElem_mem hj))
    (by
      intro y hy r hr
      cases arr with
      | nil => simp at hy
      | cons x arr =>
        simp only [List.mapIdx_cons, List.head?_cons, Option.mem_some_iff] at hy
        subst hy
        exact hfirst x (by simp) r hr)
    (by rw [map_mapIdx' arr (fun j x => (x.1, (xs j).1)) (fun x => x.1) (·.1) (fun _ _ => rfl)]; exact hnd)
    (by intro y hy; obtain ⟨j, hj, rfl⟩ := List.mem_mapIdx.mp hy; exact hnear _ (List.getElem_mem hj))
  let ys : List (Bytes × Str × Str) := arr.map fun x => ((rs[x.1]?.map (·.content)).getD [], L.alice.identity, (rs[x.1]?.map fun r => Msg.sigOf P r.sigKey r.content).getD [])
  have hys : (arr.mapIdx fun j x => (x.1, (xs j).1)).map (fun x => Msg.delivery P L rs x.1) = ys.map some := by
    rw [map_mapIdx' arr (fun j x => (x.1, (xs j).1)) (fun x => Msg.delivery P L rs x.1) (fun x => Msg.delivery P L rs x.1) (fun _ _ => rfl)]
    simp only [ys, List.map_map]
    refine List.map_congr_left fun x hx => ?_
    have hr := List.getElem?_eq_getElem (hin x hx)
    simp only [Msg.delivery, hr, Function.comp_apply, Option.map_some, Option.getD_some]
  rw [hys] at hopen
  obtain ⟨B', hheard⟩ := heard_mem (P := P) T (L := L) xs (arr.map fun x => ws.getD x.1 []) B ys (by simp [ys])
    (by intro y hy; obtain ⟨x, _, rfl⟩ := List.mem_map.mp hy; exact hplain)
    (by
      rw [← hopen, mapIdx_map']
      congr 1
      apply List.ext_getElem?
      intro i
      simp only [List.getElem?_map, List.getElem?_mapIdx, Option.map_map]
      rfl)
  -- the database after the fetch
  have hox : ∀ x ∈ arr, openEnvelope W.P my (a.privkey.drop 32) a.server a.secret x.2.2.text = .ok (.opened (ws.getD x.1 [])) :=
    fun x hx => sent_opens hP hb64 hrs hlen hsent hW hp hsec hn0 hnew hlook (hnym ▸ rfl) (htr x hx)
  obtain ⟨db', h⟩ := stored_all (I := I) W.P (memOpener P T L) hI hist hops hempty hpair ha hcache hl arr (·.2.2) (fun x => ws.getD x.1 []) hbox hox h0 hmap hknown
    (fun x => (rs[x.1]?.map (·.content)).getD []) (s := B) (s' := B') (by
      simp only [ys, List.map_map] at hheard
      exact hheard)
  exact ⟨db', B', h⟩

/-! ### the mail of a message -/

theorem intercalate_length (sep : Bytes) (x : Bytes) (l : List Bytes) :
    (sep.intercalate (x :: l)).length = x.length + (l.map fun y => sep.length + y.length).sum := by
  induction l generalizing x with
  | nil => simp [List.intercalate]
  | cons y l ih =>
    have h : sep.intercalate (x :: y :: l) = x ++ (sep ++ sep.intercalate (y :: l)) := by
      simp [List.intercalate, List.intersperse]
    rw [h, List.length_append, List.length_append, ih]
    simp only [List.map_cons, List.sum_cons]
    omega

theorem splitLines_length (s : Bytes) : ((Util.splitLines 72 (by decide) s).map fun y => 2 + y.length).sum ≤ s.length + 2 * (s.length / 72 + 1) := by
  induction h : s.length using Nat.strongRecOn generalizing s with
  | ind n ih =>
    rw [Util.splitLines]
    split
    · split
      · simp
      · simp only [List.map_cons, List.map_nil, List.sum_cons, List.sum_nil]
        omega
    · have := ih (s.drop 72).length (by rw [List.length_drop]; omega) (s.drop 72) rfl
      simp only [List.map_cons, List.sum_cons, List.length_take]
      rw [List.length_drop] at this
      omega

theorem writeMailBody_length (b : Bytes) : (writeMailBody b).length ≤ (b.length + 2) / 3 * 4 + 2 * ((b.length + 2) / 3 * 4 / 72 + 1) := by
  have hl := Base64.encode_length b
  unfold writeMailBody Util.splitMaxLine
  split
  · omega
  · have h1 := splitLines_length (Base64.encode b)
    generalize Util.splitLines 72 _ (Base64.encode b) = ls at h1 ⊢
    cases ls with
    | nil => simp [List.intercalate]
    | cons x l =>
      rw [intercalate_length]
      simp only [List.map_cons, List.sum_cons] at h1
      rw [hl] at h1
      show _ + (l.map fun y => 2 + y.length).sum ≤ _
      omega

theorem newRelay_length {P : Mix.Prims} (hP : P.Good) {clock : Int} {h : Hdr} {na msg revoke eph nonce e to : Bytes} (hn : nonce.length = 32)
    (hr : newRelay P clock h na msg revoke eph nonce = .ok (e, to)) : e.length = (h.forRelay na revoke).asn1.length + msg.length + 114 := by
  unfold newRelay at hr
  obtain ⟨a, -, hr⟩ := Res.bind_eq_ok.mp hr
  obtain ⟨e', he, hr⟩ := Res.bind_eq_ok.mp hr
  cases hr
  simp only [Mix.encrypt, Res.ok.injEq] at he
  rw [← he]
  simp only [List.length_append, Mix.gcmEncrypt, hP.gcm_len, hP.pub_len, Mix.fix32_length, hn, Mix.Hdr.marshal_length]
  omega

/-- What the mix makes of a mail that was made for the nym address. -/
theorem sent_on (W : World) (hW : W.P.Good) {mixes : List MAddr} {p : Params} (hp : (p.template []).Fits) {my pub server : Bytes} {c0 : Int} {r0 : Nat}
    {e0 n0 ma na : Bytes} (hn0 : n0.length = 32) (hnew : newNymAddress W.P c0 true true (some mixes) p my pub server r0 e0 n0 = .ok (ma, na))
    {look : KeyFunc} (hlook : ∀ m ∈ mixes, ∃ k, m.pubkey = W.P.pub k ∧ look (W.P.pub k) = some k)
    {x : Trip} (hx : x.Fine p na) {msg : Bytes} (hm : 4096 ≤ msg.length ∧ msg.length ≤ 65536) {env : Bytes}
    (hc : create W.P W.utf8 x.c1 W.head W.sender W.ca x.revoke x.e1 x.n1 x.min x.max x.token na (Base64.encode msg) = some env) (hl : env.length < 2 ^ 31)
    (hne : env ≠ []) :
    (∃ mo body, Opens W.utf8 env mo ∧ mo.to_ = ma ∧ mo.from_ = W.sender ∧ mo.message = some (W.head ma ++ body)) ∧
    ∃ text, Travels W look na (Base64.encode msg) x text (Util.hex pub ++ [64] ++ shortServer server ++ Mix.domain) := by
  obtain ⟨m, t, b, e, to, d1, d2, d3, d4, d5⟩ := create_opens hc hl
  rw [Base64.decode_encode] at d1
  cases d1
  obtain ⟨mixes', hk, mx, hmem, hrel⟩ := delivered W.P hW true true (some mixes) p hp my my pub _ c0 x.c1 x.c2 r0 e0 n0 ma na b hn0 hnew d3
    ⟨0, x.min, x.max, some t, [], none⟩ msg x.revoke x.e1 x.n1 hx.nonce hx.sent hx.mixed (hx.header t b d2 d3).1 (hx.header t b d2 d3).2 hm
  cases hk
  obtain ⟨k, k1, k2⟩ := hlook mx hmem
  obtain ⟨e2, rs, g1, g2, g3⟩ := hrel look k k1 k2
  have hlen := newRelay_length hW hx.nonce d4
  rw [d4] at g1
  cases g1
  rcases d5 with ⟨mo, o1, o2, o3, o4⟩ | rfl
  · obtain ⟨out, g4, -⟩ := g3 x.e2
    refine ⟨⟨mo, writeMailBody e, o1, o2, o3, o4⟩, Base64.encode out, env, mo, writeMailBody e, e, rs, out, hc, hl, o1, ?_, ?_, g2, g4, rfl⟩
    · rw [o4, o2]
    · rw [Util.C31_mail_body_round_trip, if_neg]
      have hs := (hx.header t b d2 d3).2
      unfold Mix.Hdr.Short at hs
      have := writeMailBody_length e
      unfold Util.maxMailSize
      omega
  · exact absurd rfl hne

/-- **C143** From the envelope to the mailbox: if the envelope of an encrypted message is recorded
as accepted, then a mail server took a mail for the mix of the nym address, and whoever holds the
keys of the mixes and reads the mail before the address expires sends the message on to the mailbox
of the account. (Server names end in "mute.one", see C112.) -/
theorem C143_mixed_partial (W : World) (hW : W.P.Good) (mixes : List MAddr) (p : Params) (hp : (p.template []).Fits) (my pub s : Bytes) (c0 : Int) (r0 : Nat)
    (e0 n0 ma na : Bytes) (hn0 : n0.length = 32) (hnew : newNymAddress W.P c0 true true (some mixes) p my pub (s ++ Mix.domain) r0 e0 n0 = .ok (ma, na))
    (look : KeyFunc) (hlook : ∀ m ∈ mixes, ∃ k, m.pubkey = W.P.pub k ∧ look (W.P.pub k) = some k)
    (x : Trip) (hx : x.Fine p na) (msg : Bytes) (hm : 4096 ≤ msg.length ∧ msg.length ≤ 65536) (env : Bytes)
    (hc : create W.P W.utf8 x.c1 W.head W.sender W.ca x.revoke x.e1 x.n1 x.min x.max x.token na (Base64.encode msg) = some env) (hl : env.length < 2 ^ 31)
    (E : Mix.Env) (killed : Option (Bytes × Bytes)) (ho : Deliver.outcome W.utf8 E killed env = .accepted) :
    (∃ mo body, (Mix.deliver E mo).2 = ⟨some (ma, W.sender, some (W.head ma ++ body)), true, none⟩) ∧
    ∃ text, Travels W look na (Base64.encode msg) x text (accountAddress pub (s ++ Mix.domain)) := by
  obtain ⟨⟨mo, body, o1, o2, o3, o4⟩, text, ht⟩ := sent_on W hW hp hn0 hnew hlook hx hm hc hl
    (fun h => Deliver.outcome_empty W.utf8 E killed (by rw [← h]; exact ho))
  refine ⟨⟨mo, body, ?_⟩, text, ?_⟩
  · rw [Deliver.C120_recorded_sent W.utf8 E killed env mo o1 ho, o2, o3, o4]
  · rw [shortServer_suffix, List.append_assoc _ s] at ht
    exact ht

end Verif.Ctrl.Journey

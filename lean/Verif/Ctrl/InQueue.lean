/-
Processing the in-queue (ctrlengine/msg.go:715-801) and the start of a fetch (msg.go:803-817).

What the cryptography answers is an arbitrary function of the row: every row is asked at most once
for its envelope and at most once for its message during a run.
-/
import Verif.Msgdb.Nyms
import Verif.Ctrl.Contact

namespace Verif.Ctrl
open Verif.Sql Verif.Msgdb

variable {I : Ids} {db db' : Db}

/-- The result of opening an envelope: an error (base64 or `ReceiveFromMix`, msg.go:730-747), a
message for another nym (748-753) or the message, in base64 (754-760). -/
inductive EnvReply
  | failed
  | foreign
  | opened (dec : Bytes)
  deriving DecidableEq, Repr

/-- The result of `mutecryptDecrypt` (msg.go:649-713). The sender is empty if there was no key for
the message. -/
inductive MsgReply
  | failed
  | decrypted (sender msg : Bytes)
  deriving DecidableEq, Repr

/-- The answers for a row; `added` tells whether a new contact can be looked up
(`mutecryptAddContact`). -/
structure InReply where
  envelope : EnvReply
  message : MsgReply
  added : Bool
  deriving DecidableEq, Repr

inductive InStep
  | idle
  | stop
  | next (db : Db)

/-- The end of the loop body (msg.go:794-797). -/
def finish (I : Ids) (db : Db) (iqIdx : Nat) (msg sender : Bytes) (drop : Bool) : InStep :=
  match db.removeInQueue I iqIdx msg sender drop with
  | .error _ => .stop
  | .ok d => .next d

/-- An envelope (msg.go:727-760). -/
def procEnvelope (I : Ids) (db : Db) (q : InFirst) (r : InReply) : InStep :=
  match db.getAccount I q.myID q.contactID with
  | .error _ => .stop
  | .ok _ =>
    match r.envelope with
    | .failed => .stop
    | .foreign => .next (db.delInQueue q.iqIdx)
    | .opened dec => .next (db.setInQueue q.iqIdx dec)

/-- A message (msg.go:761-798). -/
def procMessage (I : Ids) (db : Db) (q : InFirst) (r : InReply) : InStep :=
  match r.message with
  | .failed => .stop
  | .decrypted sender msg =>
    if sender = [] then .next (db.delInQueue q.iqIdx)
    else match db.getContact I q.myID sender with
      | .error _ => .stop
      | .ok (contact, _, type) =>
        if contact = [] then
          match contactAdd I db q.myID sender [] 1 r.added with
          | .error _ => .stop
          | .ok d => finish I d q.iqIdx msg sender false
        else finish I db q.iqIdx msg sender (type == 2)

/-- The loop body (msg.go:718-799). -/
def procStep (I : Ids) (D : Nat → InReply) (db : Db) : InStep :=
  match db.getInQueue with
  | .error _ => .stop
  | .ok none => .idle
  | .ok (some q) => if q.envelope then procEnvelope I db q (D q.iqIdx) else procMessage I db q (D q.iqIdx)

/-- `procInQueue` (msg.go:715-801) with a bound on the number of iterations: none if it is reached,
otherwise the database and whether there was no error. -/
def procRun (I : Ids) (D : Nat → InReply) : Nat → Db → Option (Db × Bool)
  | 0, _ => none
  | n + 1, db =>
    match procStep I D db with
    | .idle => some (db, true)
    | .stop => some (db, false)
    | .next d => procRun I D n d

/-! ### specification -/

/-- The sender is on the black list of the nym. -/
def blackListed (db : Db) (u : Nat) (sender : Bytes) : Bool := (first (isContact u sender) db.contacts).any fun r => r.2.blocked == 2

/-- What the user sees of a received message. -/
structure Received where
  nym : Nat
  sender : Bytes
  date : Int
  msg : Bytes
  deriving DecidableEq, Repr

/-- What a decrypted row leads to: nothing if there was no key or the sender is on the black list. -/
def receivedMsg (black : Nat → Bytes → Bool) (e : InEntry) : MsgReply → Option Received
  | .failed => none
  | .decrypted sender msg => if sender = [] then none else if black e.myID sender then none else some ⟨e.myID, sender, e.date, msg⟩

/-- What a row leads to. -/
def received (black : Nat → Bytes → Bool) (D : Nat → InReply) (r : Nat × InEntry) : Option Received :=
  if r.2.envelope then
    match (D r.1).envelope with
    | .opened _ => receivedMsg black r.2 (D r.1).message
    | _ => none
  else receivedMsg black r.2 (D r.1).message

/-- The received messages in a table. -/
def inbox (t : Table Message) : List Received := ((vals t).filter fun m => !m.outgoing).map fun m => ⟨m.self, m.from_, m.date, m.message⟩

/-- No error occurs for a row: its message can be processed. -/
def MessageFine (I : Ids) (db : Db) (e : InEntry) (r : InReply) : Prop :=
  match r.message with
  | .failed => False
  | .decrypted sender _ => sender = [] ∨ (I.isMapped sender = true ∧ ((first (isContact e.myID sender) db.contacts).isSome = true ∨ r.added = true))

/-- No error occurs for a row. -/
def RowFine (I : Ids) (db : Db) (e : InEntry) (r : InReply) : Prop :=
  if e.envelope then
    (∃ a, (first (isAccount e.myID e.contactID) db.accounts) = some a) ∧
      match r.envelope with
      | .failed => False
      | .foreign => True
      | .opened _ => MessageFine I db e r
  else MessageFine I db e r

/-! ### lemmas -/

theorem firstAsc_head {α : Type} {t : Table α} (h : Sorted t) : firstAsc (fun _ : α => true) t = t.head? := by
  rw [firstAsc_eq h]
  cases t <;> rfl

theorem deleteId_head {α : Type} {i : Nat} {a : α} {t : Table α} (h : Sorted ((i, a) :: t)) : deleteId i ((i, a) :: t) = t := by
  unfold deleteId
  rw [List.filter_cons_of_neg (by simp)]
  refine List.filter_eq_self.mpr fun r hr => ?_
  have := (List.pairwise_cons.mp h.1).1 r hr
  simp only [Bool.not_eq_true', beq_eq_false_iff_ne, ne_eq]
  simp only at this
  omega

theorem updateId_head {α : Type} {i : Nat} {a : α} {t : Table α} (f : α → α) (h : Sorted ((i, a) :: t)) : updateId i f ((i, a) :: t) = (i, f a) :: t := by
  unfold updateId
  simp only [List.map_cons, beq_self_eq_true, if_true, List.cons.injEq, true_and]
  have : ∀ r ∈ t, (if r.1 == i then (r.1, f r.2) else r) = r := fun r hr => by
    have := (List.pairwise_cons.mp h.1).1 r hr
    simp only at this
    rw [if_neg (by simp; omega)]
  rw [List.map_congr_left this]
  exact List.map_id' t

/-- The first row as `GetInQueue` reports it. -/
theorem getInQueue_cons (hI : I.map [] ≠ some []) (hw : WF I db) {i : Nat} {e : InEntry} {t : Table InEntry} (hq : db.inQueue = (i, e) :: t) :
    ∃ q n, db.getInQueue = .ok (some q) ∧ q.iqIdx = i ∧ (e.myID, n) ∈ db.nyms ∧ q.myID = n.mapped ∧ q.envelope = e.envelope ∧
      db.pair I q.myID q.contactID = .ok (e.myID, e.contactID) ∧ db.nymUID q.myID = some e.myID ∧ I.map q.myID = some q.myID := by
  have hmem : (i, e) ∈ db.inQueue := by rw [hq]; exact List.mem_cons_self
  obtain ⟨n, hn⟩ := hw.inNym _ hmem
  have hn' := byId_mem hw.nyms hn
  have hu := nymUID_mem hw hn
  have hf := (hw.nymFits _ hn).1
  have hmap : I.map n.mapped = some n.mapped := eq_of_beq hf
  have h0 : firstAsc (fun _ : InEntry => true) db.inQueue = some (i, e) := by
    rw [firstAsc_head hw.inQueue, hq]; rfl
  simp only at hn' hu hf
  by_cases hc : e.contactID = 0
  · refine ⟨⟨i, n.mapped, [], e.msg, e.envelope⟩, n, ?_, rfl, hn, rfl, rfl, ?_, hu, hmap⟩
    · simp only [Db.getInQueue, h0, hn', if_pos hc]
    · simp [Db.pair, hf, hu, hc]
  · rcases hw.inContact _ hmem with h1 | ⟨k, hk, hke⟩
    · exact absurd h1 hc
    simp only at hke hk
    have hcm := contactMapped_mem hw hk
    rw [hke] at hcm
    have hkf := (hw.contactFits _ hk).1
    simp only at hkf
    have hcu : db.contactUID e.myID k.mapped = some e.contactID := by
      unfold Db.contactUID
      cases hf' : first (isContact e.myID k.mapped) db.contacts with
      | none =>
        have := first_none_iff.mp hf' _ hk
        simp [isContact, hke] at this
      | some r =>
        have h2 := first_mem hf'
        simp only [isContact, Bool.and_eq_true, beq_iff_eq] at h2
        rw [hw.contactUnique r h2.1 _ hk (by simp only [h2.2.1, hke]) (by simp only [h2.2.2])]
        rfl
    refine ⟨⟨i, n.mapped, k.mapped, e.msg, e.envelope⟩, n, ?_, rfl, hn, rfl, rfl, ?_, hu, hmap⟩
    · simp only [Db.getInQueue, h0, hn', if_neg hc, hcm]
    · simp only [Db.pair, hf, hkf, hu, hcu]
      by_cases hk0 : k.mapped = []
      · rw [hk0] at hkf
        exact absurd (eq_of_beq hkf) hI
      · simp [hk0]

/-- The number of iterations that are left. -/
def weight (t : Table InEntry) : Nat := (t.map fun r => if r.2.envelope then 2 else 1).sum

theorem weight_cons (r : Nat × InEntry) (t : Table InEntry) : weight (r :: t) = (if r.2.envelope then 2 else 1) + weight t := by
  simp [weight]

theorem weight_deleteId (i : Nat) (t : Table InEntry) : weight (deleteId i t) ≤ weight t := by
  induction t with
  | nil => exact Nat.le_refl _
  | cons r t ih =>
    simp only [deleteId, List.filter_cons] at *
    split
    · simp only [weight_cons]; omega
    · simp only [weight_cons]; omega

theorem finish_queue {i : Nat} {e : InEntry} {t : Table InEntry} (hw : WF I db) (hq : db.inQueue = (i, e) :: t) {msg sender : Bytes} {drop : Bool}
    (h : finish I db i msg sender drop = .next db') : db'.inQueue = t := by
  unfold finish at h
  split at h
  · cases h
  rename_i d hd
  injection h with h; subst h
  unfold Db.removeInQueue at hd
  repeat' split at hd
  all_goals first
    | cases hd; done
    | (injection hd with hd; subst hd; simp only [hq]; exact deleteId_head (by rw [← hq]; exact hw.inQueue))

theorem add_queue {my s f : Bytes} {ty : Int} (h : add I db my s f ty = .ok db') : db'.inQueue = db.inQueue := by
  unfold add at h
  split at h
  · cases h
  split at h
  · cases h
  unfold Db.addContact at h
  repeat' split at h
  all_goals first
    | cases h; done
    | (injection h with h; subst h; rfl)

theorem contactAdd_queue {my s f : Bytes} {ty : Int} {b : Bool} (h : contactAdd I db my s f ty b = .ok db') : db'.inQueue = db.inQueue := by
  unfold contactAdd at h
  split at h
  · unfold contactAddMapped at h
    split at h
    · cases h
    split at h
    · split at h
      · unfold Db.addContact at h
        repeat' split at h
        all_goals first
          | cases h; done
          | (injection h with h; subst h; rfl)
      · injection h with h; subst h; rfl
    · split at h
      · exact add_queue h
      · cases h
  · cases h

theorem contactAdd_wf {my s f : Bytes} {ty : Int} {b : Bool} (hw : WF I db) (h : contactAdd I db my s f ty b = .ok db') : WF I db' := by
  unfold contactAdd at h
  split at h
  · unfold contactAddMapped at h
    split at h
    · cases h
    split at h
    · split at h
      · exact wf_addContact hw h
      · injection h with h; subst h; exact hw
    · split at h
      · unfold add at h
        split at h
        · cases h
        split at h
        · cases h
        exact wf_addContact hw h
      · cases h
  · cases h

theorem wf_set (hw : WF I db) (i : Nat) (m : Bytes) : WF I (db.setInQueue i m) := wf_step hw (.setInQueue i m)
theorem wf_del (hw : WF I db) (i : Nat) : WF I (db.delInQueue i) := wf_step hw (.delInQueue i)

theorem finish_wf (hw : WF I db) {i : Nat} {msg sender : Bytes} {drop : Bool} (h : finish I db i msg sender drop = .next db') : WF I db' := by
  unfold finish at h
  split at h
  · cases h
  rename_i d hd
  injection h with h; subst h
  exact wf_removeInQueue hw hd

/-- Every iteration makes progress, whatever the cryptography answers. -/
theorem procStep_next (hI : I.map [] ≠ some []) (hw : WF I db) {D : Nat → InReply} (h : procStep I D db = .next db') :
    WF I db' ∧ weight db'.inQueue < weight db.inQueue := by
  cases hq : db.inQueue with
  | nil =>
    exfalso
    simp only [procStep, Db.getInQueue, hq, firstAsc] at h
    cases h
  | cons r t =>
    obtain ⟨i, e⟩ := r
    obtain ⟨q, n, h1, rfl, h3, h4, h5, h6, h7, h8⟩ := getInQueue_cons hI hw hq
    have hs : Sorted ((q.iqIdx, e) :: t) := by rw [← hq]; exact hw.inQueue
    simp only [procStep, h1] at h
    split at h
    · rename_i henv
      rw [h5] at henv
      unfold procEnvelope at h
      split at h
      · cases h
      split at h
      · cases h
      · injection h with h; subst h
        refine ⟨wf_del hw _, ?_⟩
        simp only [Db.delInQueue, hq, deleteId_head hs, weight_cons]
        split <;> omega
      · injection h with h; subst h
        refine ⟨wf_set hw _ _, ?_⟩
        simp only [Db.setInQueue, hq, updateId_head _ hs, weight_cons, henv, if_true]
        simp
    · unfold procMessage at h
      split at h
      · cases h
      split at h
      · injection h with h; subst h
        refine ⟨wf_del hw _, ?_⟩
        simp only [Db.delInQueue, hq, deleteId_head hs, weight_cons]
        split <;> omega
      split at h
      · cases h
      split at h
      · split at h
        · cases h
        rename_i d hd
        refine ⟨finish_wf (contactAdd_wf hw hd) h, ?_⟩
        rw [finish_queue (contactAdd_wf hw hd) (by rw [contactAdd_queue hd]; exact hq) h, weight_cons]
        split <;> omega
      · refine ⟨finish_wf hw h, ?_⟩
        rw [finish_queue hw hq h, weight_cons]
        split <;> omega

theorem procRun_ends (hI : I.map [] ≠ some []) (hw : WF I db) (D : Nat → InReply) (n : Nat) (hn : weight db.inQueue < n) : ∃ r, procRun I D n db = some r := by
  induction n generalizing db with
  | zero => exact absurd hn (Nat.not_lt_zero _)
  | succ n ih =>
    unfold procRun
    cases hs : procStep I D db with
    | idle => exact ⟨_, rfl⟩
    | stop => exact ⟨_, rfl⟩
    | next d =>
      obtain ⟨a, b⟩ := procStep_next hI hw hs
      exact ih a (by omega)

/-- **C48** Processing the in-queue ends after a number of iterations that only depends on the
queue, for all answers. -/
theorem C48_terminates (hI : I.map [] ≠ some []) (ops : List Op) (D : Nat → InReply) :
    ∃ r, procRun I D (2 * (Db.new.run I ops).inQueue.length + 1) (Db.new.run I ops) = some r := by
  refine procRun_ends hI (wf_reach ops) D _ ?_
  have : ∀ t : Table InEntry, weight t ≤ 2 * t.length := fun t => by
    induction t with
    | nil => exact Nat.le_refl _
    | cons r t ih =>
      rw [weight_cons, List.length_cons]
      split <;> omega
  have := this (Db.new.run I ops).inQueue
  omega

/-- **C48** The full statement fails: an error in the first row, for example an envelope that
cannot be opened, ends the run before anything is done, so that the queue stays as it is, in this
run and in every later one in which the error occurs. -/
theorem C48_bad_head_blocks (hI : I.map [] ≠ some []) (ops : List Op) (i : Nat) (e : InEntry) (t : Table InEntry) (hq : (Db.new.run I ops).inQueue = (i, e) :: t)
    (D : Nat → InReply) (hD : (e.envelope = true ∧ (D i).envelope = .failed) ∨ (e.envelope = false ∧ (D i).message = .failed)) (n : Nat) :
    procRun I D (n + 1) (Db.new.run I ops) = some (Db.new.run I ops, false) := by
  obtain ⟨q, m, h1, rfl, h3, h4, h5, h6, h7, h8⟩ := getInQueue_cons hI (wf_reach ops) hq
  have : procStep I D (Db.new.run I ops) = .stop := by
    simp only [procStep, h1, h5]
    rcases hD with ⟨a, b⟩ | ⟨a, b⟩
    · simp only [a, if_true, procEnvelope, b]
      split <;> rfl
    · simp only [a, Bool.false_eq_true, if_false, procMessage, b]
  simp only [procRun, this]

/-! ### a run without errors -/

/-- The parts of the database that matter for later rows. -/
structure Same (db0 db : Db) : Prop where
  nyms : db.nyms = db0.nyms
  accounts : db.accounts = db0.accounts
  black : ∀ u s, blackListed db u s = blackListed db0 u s
  known : ∀ u s, (first (isContact u s) db0.contacts).isSome = true → (first (isContact u s) db.contacts).isSome = true

theorem Same.refl (db : Db) : Same db db := ⟨rfl, rfl, fun _ _ => rfl, fun _ _ h => h⟩

theorem Same.trans {a b c : Db} (h : Same a b) (g : Same b c) : Same a c :=
  ⟨g.nyms.trans h.nyms, g.accounts.trans h.accounts, fun u s => (g.black u s).trans (h.black u s), fun u s k => g.known u s (h.known u s k)⟩

theorem fine_message (h : Same db db') {e : InEntry} {r : InReply} (hf : MessageFine I db e r) : MessageFine I db' e r := by
  unfold MessageFine at *
  split at hf
  · cases hf
  · rcases hf with a | ⟨a, b | b⟩
    · exact .inl a
    · exact .inr ⟨a, .inl (h.known _ _ b)⟩
    · exact .inr ⟨a, .inr b⟩

theorem fine_row (h : Same db db') {e : InEntry} {r : InReply} (hf : RowFine I db e r) : RowFine I db' e r := by
  unfold RowFine at *
  by_cases he : e.envelope = true
  · rw [if_pos he] at hf ⊢
    obtain ⟨a, b⟩ := hf
    refine ⟨by rw [h.accounts]; exact a, ?_⟩
    split at b
    · cases b
    · exact trivial
    · exact fine_message h b
  · rw [if_neg he] at hf ⊢
    exact fine_message h hf

/-- What processing one row did. -/
structure RowDone (I : Ids) (db db' : Db) (t : Table InEntry) (r : Option Received) : Prop where
  wf : WF I db'
  valid : ∀ r ∈ db'.contacts, Valid r.2
  same : Same db db'
  queue : db'.inQueue = t
  inbox : inbox db'.messages = inbox db.messages ++ r.toList
  others : (vals db'.messages).filter (·.outgoing) = (vals db.messages).filter (·.outgoing)

theorem finish_done (hw : WF I db) (hv : ∀ r ∈ db.contacts, Valid r.2) {i : Nat} {e : InEntry} {t : Table InEntry} (hq : db.inQueue = (i, e) :: t)
    {sender msg : Bytes} (hs : I.isMapped sender = true) (hk : (first (isContact e.myID sender) db.contacts).isSome = true) (drop : Bool) :
    ∃ db', finish I db i msg sender drop = .next db' ∧ RowDone I db db' t (if drop then none else some ⟨e.myID, sender, e.date, msg⟩) := by
  have hmem : (i, e) ∈ db.inQueue := by rw [hq]; exact List.mem_cons_self
  have hb := byId_mem hw.inQueue hmem
  obtain ⟨n, hn⟩ := hw.inNym _ hmem
  have hn' := byId_mem hw.nyms hn
  simp only at hn'
  obtain ⟨c, hc⟩ := Option.isSome_iff_exists.mp hk
  have hcu : db.contactUID e.myID sender = some c.1 := by
    unfold Db.contactUID
    rw [hc]; rfl
  have hr : ∃ d, db.removeInQueue I i msg sender drop = .ok d ∧
      d = { db with
            messages := if drop then db.messages
              else Sql.insert db.messages ⟨e.myID, c.1, false, false, false, sender, n.mapped, e.date, subject msg, msg, false, 0, 0, false⟩
            inQueue := deleteId i db.inQueue } := by
    refine ⟨_, ?_, rfl⟩
    simp only [Db.removeInQueue, hs, hb, hcu, hn']
    rfl
  obtain ⟨d, h1, h2⟩ := hr
  refine ⟨d, by simp only [finish, h1], wf_removeInQueue hw h1, ?_, ?_, ?_, ?_, ?_⟩
  · rw [h2]; exact hv
  · rw [h2]; exact ⟨rfl, rfl, fun _ _ => rfl, fun _ _ h => h⟩
  · rw [h2]
    simp only [hq]
    exact deleteId_head (by rw [← hq]; exact hw.inQueue)
  · rw [h2]
    cases drop with
    | true => simp
    | false =>
      simp only [Bool.false_eq_true, if_false, inbox, vals_insert, List.filter_append, List.map_append]
      rfl
  · rw [h2]
    cases drop with
    | true => simp
    | false =>
      simp only [Bool.false_eq_true, if_false, vals_insert, List.filter_append]
      simp

theorem message_done (hI : I.map [] ≠ some []) (hw : WF I db) (hv : ∀ r ∈ db.contacts, Valid r.2) {i : Nat} {e : InEntry} {t : Table InEntry} (hq : db.inQueue = (i, e) :: t)
    (he : e.envelope = false) {D : Nat → InReply} (hf : MessageFine I db e (D i)) :
    ∃ db', procStep I D db = .next db' ∧ RowDone I db db' t (receivedMsg (blackListed db) e (D i).message) := by
  obtain ⟨q, n, h1, rfl, h3, h4, h5, h6, h7, h8⟩ := getInQueue_cons hI hw hq
  have hs : Sorted ((q.iqIdx, e) :: t) := by rw [← hq]; exact hw.inQueue
  simp only [procStep, h1, h5, he, Bool.false_eq_true, if_false, procMessage]
  unfold MessageFine at hf
  split at hf
  · cases hf
  rename_i sender msg hm
  simp only [hm, receivedMsg]
  by_cases h0 : sender = []
  · simp only [h0, if_true]
    refine ⟨_, rfl, wf_del hw _, hv, ⟨rfl, rfl, fun _ _ => rfl, fun _ _ h => h⟩, ?_, ?_, rfl⟩
    · simp only [Db.delInQueue, hq]; exact deleteId_head hs
    · simp [Db.delInQueue]
  simp only [if_neg h0]
  rcases hf with hf | ⟨hmp, hka⟩
  · exact absurd hf h0
  have hq8 : I.isMapped q.myID = true := by simp [Ids.isMapped, h8]
  cases hc : first (isContact e.myID sender) db.contacts with
  | some k =>
    have hval := hv _ (first_mem hc).1
    have hun : k.2.unmapped ≠ [] := (hw.contactFits _ (first_mem hc).1).2.2
    have hgc : db.getContact I q.myID sender = .ok (k.2.unmapped, k.2.fullName, k.2.blocked) := by
      simp only [Db.getContact, hq8, hmp, h7, hc]
      exact if_pos hval
    simp only [hgc, if_neg hun]
    have hb : blackListed db e.myID sender = (k.2.blocked == 2) := by
      simp [blackListed, hc]
    obtain ⟨d, a, b⟩ := finish_done (msg := msg) hw hv hq hmp (by rw [hc]; rfl) (k.2.blocked == 2)
    rw [hb]
    exact ⟨d, a, b⟩
  | none =>
    have hgc : db.getContact I q.myID sender = .ok ([], [], 0) := by
      simp only [Db.getContact, hq8, hmp, h7, hc]
      rfl
    have hadd : (D q.iqIdx).added = true := by
      rcases hka with a | a
      · rw [hc] at a; cases a
      · exact a
    have hms : I.map sender = some sender := eq_of_beq hmp
    have hsel : (select (isContact e.myID sender) db.contacts).length = 0 := select_nil_iff.mpr (first_none_iff.mp hc)
    have hca : contactAdd I db q.myID sender [] 1 (D q.iqIdx).added = .ok { db with contacts := Sql.insert db.contacts ⟨e.myID, sender, sender, [], 0⟩ } := by
      simp only [contactAdd, h8, hms, contactAddMapped, hgc, hadd, add]
      simp only [ne_eq, not_true_eq_false, if_false, if_true, false_and]
      simp only [Db.addContact, hq8, hmp, h7, hsel, hms, if_neg h0]
      simp
    simp only [hgc, if_true, hca]
    have hfi : ∀ u s, first (isContact u s) (Sql.insert db.contacts ⟨e.myID, sender, sender, [], 0⟩) =
        (first (isContact u s) db.contacts).or (if isContact u s ⟨e.myID, sender, sender, [], 0⟩ then some (nextId db.contacts, ⟨e.myID, sender, sender, [], 0⟩) else none) :=
      fun u s => first_insert _ _ _
    have hsame : Same db { db with contacts := Sql.insert db.contacts ⟨e.myID, sender, sender, [], 0⟩ } := by
      refine ⟨rfl, rfl, fun u s => ?_, fun u s hk => ?_⟩
      · simp only [blackListed, hfi]
        cases hh : first (isContact u s) db.contacts with
        | some x => rfl
        | none =>
          simp only [Option.none_or]
          split <;> simp
      · simp only [hfi]
        obtain ⟨x, hx⟩ := Option.isSome_iff_exists.mp hk
        rw [hx]; rfl
    have hw' := contactAdd_wf hw hca
    have hv' : ∀ r ∈ Sql.insert db.contacts ⟨e.myID, sender, sender, [], 0⟩, Valid r.2 := by
      intro r hr
      rcases mem_insert.mp hr with hr | rfl
      · exact hv r hr
      · exact .inl rfl
    obtain ⟨d, a, b⟩ := finish_done (msg := msg) hw' hv' (t := t) hq hmp (by simp [hfi, isContact]) false
    have hb : blackListed db e.myID sender = false := by simp [blackListed, hc]
    rw [hb]
    exact ⟨d, a, b.wf, b.valid, hsame.trans b.same, b.queue, b.inbox, b.others⟩

/-- One row takes one or two iterations. -/
theorem row_done (hI : I.map [] ≠ some []) (hw : WF I db) (hv : ∀ r ∈ db.contacts, Valid r.2) {i : Nat} {e : InEntry} {t : Table InEntry} (hq : db.inQueue = (i, e) :: t)
    {D : Nat → InReply} (hf : RowFine I db e (D i)) :
    ∃ db' k, (∀ n, procRun I D (n + k) db = procRun I D n db') ∧ RowDone I db db' t (received (blackListed db) D (i, e)) := by
  unfold RowFine at hf
  by_cases he : e.envelope = true
  · rw [if_pos he] at hf
    obtain ⟨⟨a, ha⟩, hf⟩ := hf
    obtain ⟨q, n, h1, rfl, h3, h4, h5, h6, h7, h8⟩ := getInQueue_cons hI hw hq
    have hs : Sorted ((q.iqIdx, e) :: t) := by rw [← hq]; exact hw.inQueue
    have hga : db.getAccount I q.myID q.contactID = .ok a.2 := by
      simp only [Db.getAccount, h6, ha]
    split at hf
    · cases hf
    · rename_i hr
      refine ⟨db.delInQueue q.iqIdx, 1, fun n => ?_, ?_⟩
      · simp only [procRun, procStep, h1, h5, he, if_true, procEnvelope, hga, hr]
      · simp only [received, he, if_true, hr]
        refine ⟨wf_del hw _, hv, ⟨rfl, rfl, fun _ _ => rfl, fun _ _ h => h⟩, ?_, ?_, rfl⟩
        · simp only [Db.delInQueue, hq]; exact deleteId_head hs
        · simp [Db.delInQueue]
    · rename_i dec hr
      have hq1 : (db.setInQueue q.iqIdx dec).inQueue = (q.iqIdx, { e with msg := dec, envelope := false }) :: t := by
        simp only [Db.setInQueue, hq]; exact updateId_head _ hs
      have hsame : Same db (db.setInQueue q.iqIdx dec) := ⟨rfl, rfl, fun _ _ => rfl, fun _ _ h => h⟩
      obtain ⟨d, e1, e2⟩ := message_done hI (wf_set hw q.iqIdx dec) (by exact hv) hq1 rfl (D := D) (by exact hf)
      refine ⟨d, 2, fun n => ?_, ?_⟩
      · have e0 : procStep I D db = .next (db.setInQueue q.iqIdx dec) := by
          simp only [procStep, h1, h5, he, if_true, procEnvelope, hga, hr]
        simp only [procRun, e0, e1]
      · simp only [received, he, if_true, hr]
        exact ⟨e2.wf, e2.valid, hsame.trans e2.same, e2.queue, e2.inbox, e2.others⟩
  · rw [if_neg he] at hf
    obtain ⟨d, e1, e2⟩ := message_done hI hw hv hq (by simpa using he) hf
    refine ⟨d, 1, fun n => ?_, ?_⟩
    · simp only [procRun, e1]
    · simp only [received, if_neg he]
      exact e2

theorem run_done (hI : I.map [] ≠ some []) (D : Nat → InReply) (t : Table InEntry) : ∀ (db : Db), WF I db → (∀ r ∈ db.contacts, Valid r.2) → db.inQueue = t →
    (∀ r ∈ t, RowFine I db r.2 (D r.1)) → ∃ db' k, (∀ n, procRun I D (n + k) db = some (db', true)) ∧ db'.inQueue = [] ∧
      inbox db'.messages = inbox db.messages ++ t.filterMap (received (blackListed db) D) ∧
      (vals db'.messages).filter (·.outgoing) = (vals db.messages).filter (·.outgoing) := by
  induction t with
  | nil =>
    intro db _ _ hq _
    refine ⟨db, 1, fun n => ?_, hq, by simp, rfl⟩
    simp only [procRun, procStep, Db.getInQueue, hq, firstAsc]
  | cons r t ih =>
    intro db hw hv hq hf
    obtain ⟨d, k, h1, h2⟩ := row_done hI hw hv hq (hf r List.mem_cons_self)
    obtain ⟨d', k', g1, g2, g3, g4⟩ := ih d h2.wf h2.valid h2.queue fun r hr => fine_row h2.same (hf r (.tail _ hr))
    refine ⟨d', k' + k, fun n => ?_, g2, ?_, g4.trans h2.others⟩
    · rw [← Nat.add_assoc, h1, g1]
    · have hb : blackListed d = blackListed db := funext fun u => funext fun s => h2.same.black u s
      rw [g3, h2.inbox, hb, List.append_assoc, List.filterMap_cons]
      cases received (blackListed db) D (r.1, r.2) <;> rfl

/-- **C48** If no row leads to an error, then a run empties the queue and stores, in the order of
the queue, exactly the messages of the rows for which there was a key, that were for the nym and
whose sender was not on its black list. Rows without a key do not matter for the others. Missing:
rows that lead to an error (`C48_bad_head_blocks`). -/
theorem C48_all_processed_partial (hI : I.map [] ≠ some []) (ops : List Op) (hops : ∀ op ∈ ops, ValidType op) (hdb : db = Db.new.run I ops) (D : Nat → InReply)
    (hf : ∀ r ∈ db.inQueue, RowFine I db r.2 (D r.1)) :
    ∃ db', procRun I D (2 * db.inQueue.length + 1) db = some (db', true) ∧ db'.inQueue = [] ∧
      inbox db'.messages = inbox db.messages ++ db.inQueue.filterMap (received (blackListed db) D) ∧
      (vals db'.messages).filter (·.outgoing) = (vals db.messages).filter (·.outgoing) := by
  subst hdb
  obtain ⟨d, k, h1, h2⟩ := run_done hI D _ _ (wf_reach ops) (valid_run (by nofun) ops hops) rfl hf
  refine ⟨d, ?_, h2⟩
  obtain ⟨r, hr⟩ := C48_terminates hI ops D
  have hmono : ∀ n m (x : Db) y, procRun I D n x = some y → procRun I D (n + m) x = some y := by
    intro n
    induction n with
    | zero => intro m x y h; cases h
    | succ n ih =>
      intro m x y h
      rw [Nat.add_right_comm]
      unfold procRun at h ⊢
      split at h
      · exact h
      · exact h
      · exact ih m _ y h
  have a := hmono _ k _ _ hr
  rw [h1] at a
  rw [hr, ← a]

theorem finish_senders (hw : WF I db) {i : Nat} {e : InEntry} {t : Table InEntry} (hq : db.inQueue = (i, e) :: t) {msg sender : Bytes} {drop : Bool}
    (h : finish I db i msg sender drop = .next db') : db'.contacts = db.contacts ∧
      ∀ x ∈ inbox db'.messages, x ∈ inbox db.messages ∨ (drop = false ∧ x = ⟨e.myID, sender, e.date, msg⟩) := by
  have hb := byId_mem hw.inQueue (i := i) (a := e) (by rw [hq]; exact List.mem_cons_self)
  unfold finish at h
  split at h
  · cases h
  rename_i d hd
  injection h with h; subst h
  unfold Db.removeInQueue at hd
  simp only [hb] at hd
  repeat' split at hd
  all_goals first
    | cases hd; done
    | skip
  · injection hd with hd; subst hd
    exact ⟨rfl, fun x hx => .inl hx⟩
  · rename_i hdrop
    injection hd with hd; subst hd
    refine ⟨rfl, fun x hx => ?_⟩
    simp only [inbox, vals_insert, List.filter_append, List.map_append] at hx ⊢
    rcases List.mem_append.mp hx with hx | hx
    · exact .inl hx
    · refine .inr ⟨by simpa using hdrop, ?_⟩
      simpa using hx

theorem step_senders (hI : I.map [] ≠ some []) (hw : WF I db) {D : Nat → InReply} (h : procStep I D db = .next db') :
    (∀ u s, blackListed db' u s = blackListed db u s) ∧ ∀ x ∈ inbox db'.messages, x ∈ inbox db.messages ∨ blackListed db x.nym x.sender = false := by
  cases hq : db.inQueue with
  | nil =>
    exfalso
    simp only [procStep, Db.getInQueue, hq, firstAsc] at h
    cases h
  | cons r t =>
    obtain ⟨i, e⟩ := r
    obtain ⟨q, n, h1, rfl, h3, h4, h5, h6, h7, h8⟩ := getInQueue_cons hI hw hq
    have hq8 : I.isMapped q.myID = true := by simp [Ids.isMapped, h8]
    simp only [procStep, h1] at h
    split at h
    · unfold procEnvelope at h
      repeat' split at h
      all_goals first
        | cases h; done
        | (injection h with h; subst h; exact ⟨fun _ _ => rfl, fun x hx => .inl hx⟩)
    · unfold procMessage at h
      split at h
      · cases h
      rename_i sender msg hm
      split at h
      · injection h with h; subst h; exact ⟨fun _ _ => rfl, fun x hx => .inl hx⟩
      rename_i h0
      cases hg : db.getContact I q.myID sender with
      | error e => simp only [hg] at h; cases h
      | ok r =>
        obtain ⟨u, f, ty⟩ := r
        simp only [hg] at h
        have hg' := hg
        simp only [Db.getContact, hq8, h7] at hg'
        have hms' : I.isMapped sender = true := by
          cases hx : I.isMapped sender with
          | true => rfl
          | false => simp [hx] at hg'
        have hms : I.map sender = some sender := eq_of_beq hms'
        simp only [hms'] at hg'
        cases hc : first (isContact e.myID sender) db.contacts with
        | none =>
          simp only [hc] at hg'
          have hu : u = [] ∧ f = [] ∧ ty = 0 := by
            simp at hg'
            exact ⟨hg'.1, hg'.2.1, hg'.2.2.symm⟩
          obtain ⟨rfl, rfl, rfl⟩ := hu
          rw [if_pos rfl] at h
          split at h
          · cases h
          rename_i d hd
          have hsel : (select (isContact e.myID sender) db.contacts).length = 0 := select_nil_iff.mpr (first_none_iff.mp hc)
          have hd' : d = { db with contacts := Sql.insert db.contacts ⟨e.myID, sender, sender, [], 0⟩ } := by
            simp only [contactAdd, h8, hms, contactAddMapped, hg, add] at hd
            simp only [ne_eq, not_true_eq_false, if_false, false_and] at hd
            split at hd
            · simp only [Db.addContact, hq8, hms', h7, hsel, hms, if_neg h0] at hd
              simp at hd
              exact hd.symm
            · cases hd
          have hw' := contactAdd_wf hw hd
          have hq' : d.inQueue = (q.iqIdx, e) :: t := by rw [contactAdd_queue hd]; exact hq
          obtain ⟨g1, g2⟩ := finish_senders hw' hq' h
          have hb : ∀ u s, blackListed d u s = blackListed db u s := by
            intro u s
            rw [hd']
            simp only [blackListed, first_insert]
            cases hh : first (isContact u s) db.contacts with
            | some x => rfl
            | none =>
              simp only [Option.none_or]
              split <;> simp
          refine ⟨fun u s => by rw [← hb]; simp only [blackListed, g1], fun x hx => ?_⟩
          rcases g2 x hx with g | ⟨_, rfl⟩
          · left; rw [hd'] at g; exact g
          · right
            simp [blackListed, hc]
        | some k =>
          simp only [hc] at hg'
          have hty : k.2.blocked = ty ∧ u = k.2.unmapped := by
            split at hg'
            · cases hg'
            split at hg'
            · simp only [Except.ok.injEq, Prod.mk.injEq] at hg'; exact ⟨hg'.2.2, hg'.1.symm⟩
            · cases hg'
          have hun : u ≠ [] := by rw [hty.2]; exact (hw.contactFits _ (first_mem hc).1).2.2
          rw [if_neg hun] at h
          obtain ⟨g1, g2⟩ := finish_senders hw hq h
          refine ⟨fun u s => by simp only [blackListed, g1], fun x hx => ?_⟩
          rcases g2 x hx with g | ⟨gd, rfl⟩
          · exact .inl g
          · right
            simp only [blackListed, hc, Option.any_some, hty.1]
            exact gd

theorem run_senders (hI : I.map [] ≠ some []) (D : Nat → InReply) (n : Nat) : ∀ (db : Db), WF I db → ∀ db' b, procRun I D n db = some (db', b) →
    ∀ x ∈ inbox db'.messages, x ∈ inbox db.messages ∨ blackListed db x.nym x.sender = false := by
  induction n with
  | zero => intro db _ db' b h; cases h
  | succ n ih =>
    intro db hw db' b h x hx
    unfold procRun at h
    split at h
    · simp only [Option.some.injEq, Prod.mk.injEq] at h
      rw [← h.1] at hx; exact .inl hx
    · simp only [Option.some.injEq, Prod.mk.injEq] at h
      rw [← h.1] at hx; exact .inl hx
    · rename_i d hd
      obtain ⟨a1, a2⟩ := step_senders hI hw hd
      rcases ih d (procStep_next hI hw hd).1 db' b h x hx with g | g
      · exact a2 x g
      · right; rw [← a1]; exact g

/-- **C100** A message of a blocked contact is never stored: whatever the cryptography answers and
however a run ends, all messages it adds come from senders that are not on the black list of the
nym. -/
theorem C100_blocked_not_stored (hI : I.map [] ≠ some []) (ops : List Op) (D : Nat → InReply) (n : Nat) (db' : Db) (b : Bool)
    (h : procRun I D n (Db.new.run I ops) = some (db', b)) (x : Received) (hx : x ∈ inbox db'.messages) (hn : x ∉ inbox (Db.new.run I ops).messages) :
    blackListed (Db.new.run I ops) x.nym x.sender = false := by
  rcases run_senders hI D n _ (wf_reach ops) db' b h x hx with g | g
  · exact absurd g hn
  · exact g

/-! ### examples -/

def noEmptyI : Ids := ⟨fun u => if u = [] then none else some u⟩

/-- A queue with an envelope from a stranger, a message from a blocked contact and one for which there
is no key. -/
def queueOps : List Op := [.addNym [1] [1] [], .addContact [1] [3] [3] [] 2, .addAccount [1] [] [9] [9] [9] 0 0, .addInQueue [1] [] 50 [20],
  .addInQueue [1] [] 51 [21], .setInQueue 2 [22], .addInQueue [1] [] 52 [23], .setInQueue 3 [24]]

def queueReply (i : Nat) : InReply :=
  match i with
  | 1 => ⟨.opened [30], .decrypted [4] [72, 105], true⟩
  | 2 => ⟨.failed, .decrypted [3] [31], true⟩
  | _ => ⟨.failed, .decrypted [] [], true⟩

example : (∀ op ∈ queueOps, ValidType op) ∧ noEmptyI.map [] ≠ some [] ∧ ∀ r ∈ (Db.new.run noEmptyI queueOps).inQueue, RowFine noEmptyI (Db.new.run noEmptyI queueOps) r.2 (queueReply r.1) := by
  refine ⟨?_, by decide, ?_⟩
  · intro op h
    simp only [queueOps, List.mem_cons, List.not_mem_nil, or_false] at h
    rcases h with rfl | rfl | rfl | rfl | rfl | rfl | rfl | rfl
    all_goals first
      | exact trivial
      | exact .inr (.inr rfl)
  · intro r h
    have : (Db.new.run noEmptyI queueOps).inQueue = [(1, ⟨1, 0, 50, [20], true⟩), (2, ⟨1, 0, 51, [22], false⟩), (3, ⟨1, 0, 52, [24], false⟩)] := rfl
    rw [this] at h
    simp only [List.mem_cons, List.not_mem_nil, or_false] at h
    rcases h with rfl | rfl | rfl
    · exact ⟨⟨_, rfl⟩, .inr ⟨rfl, .inr rfl⟩⟩
    · exact .inr ⟨rfl, .inl rfl⟩
    · exact .inl rfl

example : (Db.new.run noEmptyI queueOps).inQueue.filterMap (received (blackListed (Db.new.run noEmptyI queueOps)) queueReply) = [⟨1, [4], 50, [72, 105]⟩] := rfl

/-- **C99** The stranger of the example is on the white list afterwards. -/
theorem C99_stranger_white_listed : ∃ db', procRun noEmptyI queueReply 7 (Db.new.run noEmptyI queueOps) = some (db', true) ∧
    (Db.new.run noEmptyI queueOps).getContact noEmptyI [1] [4] = .ok ([], [], 0) ∧ db'.getContact noEmptyI [1] [4] = .ok ([4], [], 0) :=
  ⟨_, rfl, rfl, rfl⟩

end Verif.Ctrl

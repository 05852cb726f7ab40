/-
The invariant of sending: what is recorded in the database about a message was done for this message.
-/
import Verif.Ctrl.Send

namespace Verif.Ctrl
open Verif.Sql Verif.Msgdb

variable {I : Ids}

/-- The events after the last time the number was given to a message. -/
def since (i : Nat) (log : List Ev) : List Ev := log.takeWhile fun e => decide (e ≠ .added i)

/-- The message was encrypted for its recipient, signed if it was to be, the ciphertext was put into the envelope for
the nym address of the recipient with the delays of the message, and the envelope was handed over; the date is the time
then and the minimum delay. -/
def Trail (log : List Ev) (i : Nat) (m : Message) : Prop :=
  ∃ enc na env now, Ev.encrypted i m.to m.message m.sign enc na ∈ since i log ∧
    Ev.created i enc na m.minDelay m.maxDelay env ∈ since i log ∧ Ev.accepted i env now ∈ since i log ∧
    m.date = now + m.minDelay

/-- What an entry of the out-queue holds was made from its message. -/
def Made (log : List Ev) (i : Nat) (m : Message) (e : OutEntry) : Prop :=
  e.minDelay = m.minDelay ∧ e.maxDelay = m.maxDelay ∧ ∃ enc, Ev.encrypted i m.to m.message m.sign enc e.nymaddress ∈ since i log ∧
    (e.envelope = false → e.msg = enc) ∧ (e.envelope = true → Ev.created i enc e.nymaddress m.minDelay m.maxDelay e.msg ∈ since i log)

/-- What of a message never changes. -/
structure SameText (m m' : Message) : Prop where
  to : m.to = m'.to
  message : m.message = m'.message
  sign : m.sign = m'.sign
  min : m.minDelay = m'.minDelay
  max : m.maxDelay = m'.maxDelay

theorem since_mono {i : Nat} {log : List Ev} {e x : Ev} (h : x ∈ since i log) (he : e ≠ .added i) : x ∈ since i (e :: log) := by
  unfold since at h ⊢
  rw [List.takeWhile_cons, if_pos (by simpa using he)]
  exact List.mem_cons_of_mem _ h

theorem since_head {i : Nat} {log : List Ev} {e : Ev} (he : e ≠ .added i) : e ∈ since i (e :: log) := by
  unfold since
  rw [List.takeWhile_cons, if_pos (by simpa using he)]
  exact List.mem_cons_self

theorem Trail.mono {i : Nat} {log : List Ev} {m : Message} {e : Ev} (h : Trail log i m) (he : e ≠ .added i) : Trail (e :: log) i m := by
  obtain ⟨enc, na, env, now, a, b, c, d⟩ := h
  exact ⟨enc, na, env, now, since_mono a he, since_mono b he, since_mono c he, d⟩

theorem Made.mono {i : Nat} {log : List Ev} {m : Message} {x : OutEntry} {e : Ev} (h : Made log i m x) (he : e ≠ .added i) : Made (e :: log) i m x := by
  obtain ⟨h1, h2, enc, a, b, c⟩ := h
  exact ⟨h1, h2, enc, since_mono a he, b, fun hv => since_mono (c hv) he⟩

theorem Trail.same {i : Nat} {log : List Ev} {m m' : Message} (h : Trail log i m) (hs : SameText m' m) (hd : m'.date = m.date) : Trail log i m' := by
  obtain ⟨h1, h2, h3, h4, h5⟩ := hs
  simp only [Trail, h1, h2, h3, h4, h5, hd]
  exact h

theorem Made.same {i : Nat} {log : List Ev} {m m' : Message} {x : OutEntry} (h : Made log i m x) (hs : SameText m' m) : Made log i m' x := by
  obtain ⟨h1, h2, h3, h4, h5⟩ := hs
  simp only [Made, h1, h2, h3, h4, h5]
  exact h

/-- The entry at this place of the out-queue, which is not marked for a later run. -/
def Active (s : St) (i : Nat) (e : OutEntry) : Prop := (i, e) ∈ s.db.outQueue ∧ s.db.nymUID s.nym = some e.self ∧ e.resend = false

/-- The message was reported as undelivered. -/
def Picked (s : St) (x : Undelivered) : Prop :=
  ∃ m, (x.msgNum, m) ∈ s.db.messages ∧ m.toSend = true ∧ s.db.nymUID s.nym = some m.self ∧ x.msg = m.message ∧ x.contactID = m.to ∧
    x.sign = m.sign ∧ x.minDelay = m.minDelay ∧ x.maxDelay = m.maxDelay

/-- What is known at each place of the code. -/
def PcOk (s : St) : Pc → Prop
  | .create _ i e => Active s i e ∧ e.envelope = false
  | .store _ i e env => Active s i e ∧ e.envelope = false ∧ Ev.created e.msgID e.msg e.nymaddress e.minDelay e.maxDelay env ∈ since e.msgID s.log
  | .deliver _ i e msg => ∃ e', Active s i e' ∧ e'.msgID = e.msgID ∧ e'.envelope = true ∧ e'.msg = msg ∧ e'.minDelay = e.minDelay
  | .retract _ i => ∃ e, Active s i e
  | .resend _ i => ∃ e, Active s i e
  | .remove _ i d => ∃ e now, Active s i e ∧ e.envelope = true ∧ Ev.accepted e.msgID e.msg now ∈ since e.msgID s.log ∧ d = now + e.minDelay
  | .address x => Picked s x
  | .encrypt _ x => Picked s x
  | .add _ x enc na => Picked s x ∧ Ev.encrypted x.msgNum x.contactID x.msg x.sign enc na ∈ since x.msgNum s.log
  | _ => True

structure Inv (I : Ids) (s : St) : Prop where
  wf : WF I s.db
  del : Del s.db.messages s.db.outQueue
  made : ∀ r ∈ s.db.outQueue, ∀ m, (r.2.msgID, m) ∈ s.db.messages → Made s.log r.2.msgID m r.2
  sent : ∀ i m, (i, m) ∈ s.db.messages → m.sent = true → Trail s.log i m
  pc : PcOk s s.pc

theorem inv_new : Inv I St.new := ⟨wf_new, del_new, nofun, nofun, trivial⟩

/-! ### what other commands do to messages and the out-queue -/

/-- Messages are the same up to the mark that they were read, or new; the out-queue loses entries only. -/
structure Quiet (db db' : Db) (new : List Ev) : Prop where
  messages : ∀ i m', (i, m') ∈ db'.messages →
    (∃ m, (i, m) ∈ db.messages ∧ m' = { m with read := m'.read } ∧ Ev.added i ∉ new) ∨ (m'.sent = false ∧ (∀ r ∈ db'.outQueue, r.2.msgID ≠ i))
  queue : ∀ r ∈ db'.outQueue, r ∈ db.outQueue
  events : new = [] ∨ new = [.added (nextId db.messages)]

theorem quiet_same {db db' : Db} (hm : db'.messages = db.messages) (hq : db'.outQueue = db.outQueue) : Quiet db db' [] where
  messages := fun i m' h => .inl ⟨m', hm ▸ h, rfl, List.not_mem_nil⟩
  queue := fun r h => hq ▸ h
  events := .inl rfl

theorem quiet_insert {db db' : Db} (hw : WF I db) {m : Message} (hm : db'.messages = Sql.insert db.messages m) (hs : m.sent = false) (hq : db'.outQueue = db.outQueue) :
    Quiet db db' [.added (nextId db.messages)] where
  messages := fun i m' h => by
    rw [hm] at h
    rcases mem_insert.mp h with h | h
    · refine .inl ⟨m', h, rfl, ?_⟩
      have := lt_nextId _ h
      simp only at this
      simp only [List.mem_singleton, Ev.added.injEq]
      omega
    · injection h with h1 h2
      subst h1; subst h2
      refine .inr ⟨hs, fun r hr e => ?_⟩
      rw [hq] at hr
      obtain ⟨x, hx⟩ := hw.outMessage r hr
      have := lt_nextId _ hx
      simp only at this
      omega
  queue := fun r h => hq ▸ h
  events := .inr rfl

theorem quiet_user {db db' : Db} (hw : WF I db) (op : Op) (hu : userOp op = true) (he : db.apply I op = .ok db') : Quiet db db' (addedBy db op) := by
  cases op with
  | addOutQueue => cases hu
  | setOutQueue => cases hu
  | removeOutQueue => cases hu
  | retractOutQueue => cases hu
  | setResend => cases hu
  | clearResend => cases hu
  | delNym m =>
    obtain ⟨u, n, _, _, rfl⟩ := delNym_ok he
    refine ⟨fun i m' h => .inl ⟨m', ?_, rfl, List.not_mem_nil⟩, fun r h => ?_, .inl rfl⟩
    · simp only [Db.cascade] at h
      exact (mem_delete.mp h).1
    · simp only [Db.cascade] at h
      exact (mem_delete.mp h).1
  | addMessage s p d b m g mi ma =>
    simp only [Db.apply, Db.addMessage] at he
    repeat' split at he
    all_goals first
      | cases he; done
      | (injection he with he; subst he; exact quiet_insert hw rfl rfl rfl)
  | readMessage n =>
    injection he with he; subst he
    refine ⟨fun i m' h => .inl ?_, fun r h => h, .inl rfl⟩
    simp only [Db.readMessage] at h
    obtain ⟨a, ha, e | ⟨_, e⟩⟩ := of_updateId h
    · simp only at e; subst e; exact ⟨_, ha, rfl, List.not_mem_nil⟩
    · simp only at e; subst e; exact ⟨_, ha, rfl, List.not_mem_nil⟩
  | delMessage my n =>
    simp only [Db.apply, Db.delMessage] at he
    repeat' split at he
    all_goals first
      | cases he; done
      | (injection he with he; subst he
         exact ⟨fun i m' h => .inl ⟨m', (mem_deleteId.mp h).1, rfl, List.not_mem_nil⟩, fun r h => (mem_delete (p := fun o : OutEntry => o.msgID == n).mp h).1, .inl rfl⟩)
  | removeInQueue i p f d =>
    simp only [Db.apply, Db.removeInQueue] at he
    cases d with
    | true =>
      simp only [if_true] at he
      repeat' split at he
      all_goals first
        | cases he; done
        | (injection he with he; subst he; exact quiet_same rfl rfl)
    | false =>
      simp only [Bool.false_eq_true, if_false] at he
      repeat' split at he
      all_goals first
        | cases he; done
        | (injection he with he; subst he; exact quiet_insert hw rfl rfl rfl)
  | _ =>
    simp only [Db.apply, Db.addValue, Db.addNym, Db.setUpkeepAll, Db.setUpkeepAccounts, Db.addContact, Db.removeContact,
      Db.addAccount, Db.setAccountTime, Db.setAccountLastMsg, Db.addInQueue, Db.setInQueue, Db.delInQueue, Db.addCache, Db.removeCache] at he
    repeat' split at he
    all_goals first
      | cases he; done
      | (injection he with he; subst he; exact quiet_same rfl rfl)

theorem wf_apply {db db' : Db} {op : Op} (hw : WF I db) (he : db.apply I op = .ok db') : WF I db' := by
  have := wf_step hw op
  unfold Db.step at this
  rw [he] at this
  exact this

theorem user_disciplined (db : Db) {op : Op} (h : userOp op = true) : Disciplined db op := by cases op <;> first | trivial | cases h

theorem PcOk.of_idle {s : St} {pc : Pc} (h : pc.idle = true) : PcOk s pc := by cases pc <;> first | trivial | cases h

theorem inv_user {s : St} (h : Inv I s) (op : Op) (hi : s.pc.idle = true) (hu : userOp op = true) : Inv I (s.user I op) := by
  unfold St.user
  split
  · exact h
  rename_i d he
  have q := quiet_user h.wf op hu he
  have low : ∀ {i : Nat} {x : Ev}, x ∈ since i s.log → Ev.added i ∉ addedBy s.db op → x ∈ since i (addedBy s.db op ++ s.log) := by
    intro i x hx hn
    rcases q.events with e | e
    · rw [e]; exact hx
    · rw [e] at hn ⊢
      exact since_mono hx fun c => hn (by rw [c]; exact List.mem_singleton_self _)
  refine ⟨wf_apply h.wf he, del_apply h.wf h.del op (user_disciplined _ hu) he, ?_, ?_, PcOk.of_idle hi⟩
  · intro r hr m' hm
    rcases q.messages _ _ hm with ⟨m, h1, h2, h3⟩ | ⟨_, h2⟩
    · have := h.made r (q.queue r hr) m h1
      rw [h2]
      obtain ⟨a1, a2, enc, a3, a4, a5⟩ := this
      exact ⟨a1, a2, enc, low a3 h3, a4, fun hv => low (a5 hv) h3⟩
    · exact absurd rfl (h2 r hr)
  · intro i m' hm hs
    rcases q.messages _ _ hm with ⟨m, h1, h2, h3⟩ | ⟨h1, _⟩
    · rw [h2] at hs
      obtain ⟨enc, na, env, now, a, b, c, d⟩ := h.sent i m h1 hs
      rw [h2]
      exact ⟨enc, na, env, now, low a h3, low b h3, low c h3, d⟩
    · rw [h1] at hs; cases hs

theorem inv_fail {s : St} (h : Inv I s) : Inv I s.fail := ⟨h.wf, h.del, h.made, h.sent, trivial⟩

theorem inv_next {s : St} (h : Inv I s) : Inv I s.next := by
  unfold St.next
  split
  · exact ⟨h.wf, h.del, h.made, h.sent, trivial⟩
  · exact ⟨h.wf, h.del, h.made, h.sent, trivial⟩

theorem inv_leave {s : St} (h : Inv I s) (b : Bool) : Inv I (s.leave b) := by
  unfold St.leave
  split
  · exact ⟨h.wf, h.del, h.made, h.sent, trivial⟩
  · exact inv_next h

theorem inv_start {s : St} (h : Inv I s) (ns : List Bytes) : Inv I (s.start ns) :=
  inv_next (s := { s with todo := ns, pc := .done, tried := [] }) ⟨h.wf, h.del, h.made, h.sent, trivial⟩

/-! ### the steps -/

theorem out_first {db : Db} (hw : WF I db) {my : Bytes} {i : Nat} {e : OutEntry} (h : db.getOutQueue I my = .ok (some (i, e))) :
    (i, e) ∈ db.outQueue ∧ db.nymUID my = some e.self ∧ e.resend = false ∧
      ∀ j e', (j, e') ∈ db.outQueue → db.nymUID my = some e'.self → e'.resend = false → i ≤ j := by
  unfold Db.getOutQueue at h
  split at h
  · cases h
  split at h
  · cases h
  rename_i u hu
  injection h with h
  rw [firstAsc_eq hw.outQueue] at h
  have hm := first_mem h
  rw [Bool.and_eq_true, Bool.not_eq_true'] at hm
  rw [hu]
  refine ⟨hm.1, by rw [eq_of_beq hm.2.1], hm.2.2, fun j e' hj hu' hr => ?_⟩
  injection hu' with hu'
  by_cases hlt : j < i
  · have hs := hw.outQueue.1
    unfold first at h
    obtain ⟨_, l1, l2, h1, h2⟩ := List.find?_eq_some_iff_append.mp h
    rw [h1] at hj hs
    rcases List.mem_append.mp hj with hj | hj
    · have := h2 _ hj
      simp [← hu', hr] at this
    · rcases List.mem_cons.mp hj with hj | hj
      · injection hj with hj; omega
      · have := (List.pairwise_cons.mp (List.pairwise_append.mp hs).2.1).1 _ hj
        simp only at this
        omega
  · omega

theorem out_none {db : Db} {my : Bytes} (hw : WF I db) (h : db.getOutQueue I my = .ok none) {r : Nat × OutEntry} (hr : r ∈ db.outQueue) (hu : db.nymUID my = some r.2.self) : r.2.resend = true := by
  unfold Db.getOutQueue at h
  split at h
  · cases h
  rw [hu] at h
  simp only [firstAsc_eq hw.outQueue, Except.ok.injEq, first, List.find?_eq_none] at h
  have := h r hr
  simpa using this

theorem contactMapped_some {db : Db} {u c : Nat} {m : Bytes} (h : db.contactMapped u c = some m) : ∃ k, (c, k) ∈ db.contacts ∧ k.myID = u ∧ k.mapped = m := by
  unfold Db.contactMapped at h
  obtain ⟨k, h1, h2⟩ := Option.bind_eq_some_iff.mp h
  split at h2
  · rename_i hu
    injection h2 with h2
    exact ⟨k, byId_some h1, eq_of_beq hu, h2⟩
  · cases h2

theorem undelivered_picked {s : St} {x : Undelivered} (h : Inv I s) (he : s.db.getUndelivered I s.nym = .ok (some x)) : Picked s x := by
  unfold Db.getUndelivered at he
  split at he
  · cases he
  split at he
  · cases he
  rename_i u hu
  split at he
  · cases he
  rename_i i m hf
  rw [firstAsc_eq h.wf.messages] at hf
  have hm := first_mem hf
  rw [Bool.and_eq_true] at hm
  split at he
  · cases he
  rename_i c hc
  simp only [Except.ok.injEq, Option.some.injEq] at he
  subst he
  have hs : m.self = u := eq_of_beq hm.2.1
  refine ⟨m, hm.1, hm.2.2, by rw [hu, hs], rfl, ?_, rfl, rfl, rfl⟩
  have ho : m.outgoing = true := by
    cases ho : m.outgoing with
    | true => rfl
    | false => have := (h.del.inc i m hm.1 ho).1; rw [hm.2.2] at this; cases this
  obtain ⟨k, h1, h2⟩ := h.wf.messageName _ hm.1
  obtain ⟨k', h3, _, h5⟩ := contactMapped_some hc
  have := sorted_unique h.wf.contacts h1 h3 rfl
  injection this with _ this
  subst this
  rw [ho, if_pos rfl] at h2
  rw [← h5, h2]

/-- An operation of the engine on the database. -/
theorem inv_op {s : St} (h : Inv I s) {op : Op} {d : Db} {pc : Pc} (he : s.db.apply I op = .ok d) (hd : Disciplined s.db op)
    (hq : ∀ r ∈ d.outQueue, (∃ x ∈ s.db.outQueue, r.2 = { x.2 with resend := r.2.resend }) ∨
      ∀ m, (r.2.msgID, m) ∈ s.db.messages → Made s.log r.2.msgID m r.2)
    (hm : ∀ i m', (i, m') ∈ d.messages → ∃ m, (i, m) ∈ s.db.messages ∧ SameText m' m ∧
      (m'.sent = true → (m.sent = true ∧ m'.date = m.date) ∨ Trail s.log i m'))
    (hp : PcOk { s with db := d, pc := pc } pc) : Inv I { s with db := d, pc := pc } := by
  refine ⟨wf_apply h.wf he, del_apply h.wf h.del op hd he, ?_, ?_, hp⟩
  · intro r hr m' hm'
    obtain ⟨m, h1, h2, _⟩ := hm _ _ hm'
    have key : Made s.log r.2.msgID m r.2 := by
      rcases hq r hr with ⟨x, hx, e1⟩ | hn
      · rw [e1] at h1 ⊢
        exact h.made x hx m h1
      · exact hn m h1
    exact key.same h2
  · intro i m' hm' hs
    obtain ⟨m, h1, h2, h4⟩ := hm _ _ hm'
    rcases h4 hs with a | a
    · exact (h.sent i m h1 a.1).same h2 a.2
    · exact a

/-- Messages keep their text. -/
theorem text_update {s : St} {n : Nat} {f : Message → Message} {log : List Ev} (hf : ∀ m, SameText (f m) m)
    (hs : ∀ m, (n, m) ∈ s.db.messages → (f m).sent = true → (m.sent = true ∧ (f m).date = m.date) ∨ Trail log n (f m)) (i : Nat) (m' : Message) (h : (i, m') ∈ updateId n f s.db.messages) :
    ∃ m, (i, m) ∈ s.db.messages ∧ SameText m' m ∧ (m'.sent = true → (m.sent = true ∧ m'.date = m.date) ∨ Trail log i m') := by
  obtain ⟨a, ha, e | ⟨e1, e⟩⟩ := of_updateId h
  · simp only at e; subst e
    exact ⟨_, ha, ⟨rfl, rfl, rfl, rfl, rfl⟩, fun hs => .inl ⟨hs, rfl⟩⟩
  · simp only at e e1; subst e; subst e1
    exact ⟨a, ha, hf a, hs a ha⟩

theorem text_same {s : St} {log : List Ev} (i : Nat) (m' : Message) (h : (i, m') ∈ s.db.messages) :
    ∃ m, (i, m) ∈ s.db.messages ∧ SameText m' m ∧ (m'.sent = true → (m.sent = true ∧ m'.date = m.date) ∨ Trail log i m') :=
  ⟨m', h, ⟨rfl, rfl, rfl, rfl, rfl⟩, fun hs => .inl ⟨hs, rfl⟩⟩

/-- An event that is not the arrival of a message. -/
theorem inv_event {s : St} (h : Inv I s) {e : Ev} (he : ∀ i, e ≠ .added i) {pc : Pc} {tried : List Nat}
    (hp : PcOk { s with log := e :: s.log, pc := pc, tried := tried } pc) : Inv I { s with log := e :: s.log, pc := pc, tried := tried } :=
  ⟨h.wf, h.del, fun r hr m hm => (h.made r hr m hm).mono (he _), fun i m hm hs => (h.sent i m hm hs).mono (he _), hp⟩

theorem inv_pc {s : St} (h : Inv I s) {pc : Pc} {tried : List Nat} (hp : PcOk { s with pc := pc, tried := tried } pc) : Inv I { s with pc := pc, tried := tried } :=
  ⟨h.wf, h.del, h.made, h.sent, hp⟩

theorem active_setOut {s : St} {i : Nat} {e : OutEntry} (h : Active s i e) (env : Bytes) (pc : Pc) :
    Active { s with db := s.db.setOutQueue i env, pc := pc } i { e with msg := env, envelope := true } :=
  ⟨(mem_updateId (f := fun o : OutEntry => { o with msg := env, envelope := true })).mpr (.inr ⟨e, h.1, rfl⟩), h.2.1, h.2.2⟩

theorem inv_step {s : St} (h : Inv I s) (r : Reply) : Inv I (s.step I r) := by
  have hp := h.pc
  unfold St.step
  split <;> rename_i hpc <;> rw [hpc] at hp
  · -- clear
    cases he : s.db.clearResend I s.nym with
    | error e => exact inv_pc h trivial
    | ok d =>
      simp only [St.after]
      have : Inv I { s with db := d, pc := .get true } := by
        refine inv_op h (op := .clearResend s.nym) he trivial ?_ ?_ trivial
        · unfold Db.clearResend at he
          repeat' split at he
          all_goals first
            | cases he; done
            | skip
          injection he with he; subst he
          intro r hr
          simp only at hr
          obtain ⟨a, ha, e | ⟨_, e⟩⟩ := of_update hr
          · exact .inl ⟨_, ha, by rw [e]⟩
          · exact .inl ⟨_, ha, by rw [e]⟩
        · unfold Db.clearResend at he
          repeat' split at he
          all_goals first
            | cases he; done
            | skip
          injection he with he; subst he
          exact fun i m' => text_same i m'
      exact inv_pc this trivial
  · -- get
    split
    · exact inv_fail h
    rename_i old _ x hx
    unfold St.got
    split
    · exact inv_leave h old
    rename_i i e
    obtain ⟨h1, h2, h3, _⟩ := out_first h.wf hx
    split
    · exact inv_leave h old
    split
    · rename_i hv
      exact inv_pc (tried := s.tried) h ⟨e, ⟨h1, h2, h3⟩, rfl, hv, rfl, rfl⟩
    · rename_i hv
      exact inv_pc (tried := s.tried) h ⟨⟨h1, h2, h3⟩, by simpa using hv⟩
  · -- create
    split
    · exact inv_fail h
    exact inv_event (tried := s.tried) h (fun _ h => Ev.noConfusion h) ⟨hp.1, hp.2, since_head nofun⟩
  · -- store
    rename_i old i e env
    obtain ⟨ha, hv, hc⟩ := hp
    simp only [St.after]
    refine inv_op h (op := .setOutQueue i env) rfl trivial ?_ ?_ ⟨_, active_setOut ha env _, rfl, rfl, rfl, rfl⟩
    · intro x hx
      simp only [Db.setOutQueue] at hx
      obtain ⟨a, hx1, e' | ⟨e1, e'⟩⟩ := of_updateId hx
      · exact .inl ⟨_, hx1, by rw [e']⟩
      · have hu : (i, a) ∈ s.db.outQueue := by rw [← e1]; exact hx1
        have := sorted_unique h.wf.outQueue hu ha.1 rfl
        injection this with _ this
        subst this
        refine .inr fun m hm => ?_
        rw [e'] at hm ⊢
        simp only at hm ⊢
        obtain ⟨a1, a2, enc, a3, a4, _⟩ := h.made _ ha.1 m hm
        have a4 := a4 hv
        simp only at a1 a2 a3 a4
        subst a4
        rw [a1, a2] at hc
        exact ⟨a1, a2, _, a3, nofun, fun _ => hc⟩
    · exact fun i m' => text_same i m'
  · -- deliver
    rename_i old i e msg
    obtain ⟨e', ha, h1, h2, h3, h4⟩ := hp
    unfold St.delivered
    split
    · refine inv_event h (fun _ h => Ev.noConfusion h) ⟨e', r.now, ha, h2, ?_, by rw [h4]⟩
      rw [h1, h3]
      exact since_head nofun
    · exact inv_pc h ⟨e', ha⟩
    · exact inv_pc h ⟨e', ha⟩
    · exact inv_pc h trivial
  · -- retract
    rename_i old i
    obtain ⟨e, ha⟩ := hp
    have hb := byId_mem h.wf.outQueue ha.1
    have he : s.db.retractOutQueue i = .ok { s.db with
        messages := updateId e.msgID (fun m => { m with toSend := true }) s.db.messages
        outQueue := deleteId i s.db.outQueue } := by unfold Db.retractOutQueue; rw [hb]
    rw [he]
    refine inv_op h (op := .retractOutQueue i) he trivial ?_ ?_ trivial
    · exact fun x hx => .inl ⟨x, (mem_deleteId.mp hx).1, rfl⟩
    · exact text_update (f := fun m => { m with toSend := true }) (fun m => ⟨rfl, rfl, rfl, rfl, rfl⟩) fun m _ hs => .inl ⟨hs, rfl⟩
  · -- resend
    rename_i old i
    simp only [St.after]
    refine inv_op h (op := .setResend i) rfl trivial ?_ ?_ trivial
    · intro x hx
      simp only [Db.setResend] at hx
      obtain ⟨a, hx1, e' | ⟨_, e'⟩⟩ := of_updateId hx
      · exact .inl ⟨_, hx1, by rw [e']⟩
      · exact .inl ⟨_, hx1, by rw [e']⟩
    · exact fun i m' => text_same i m'
  · -- remove
    rename_i old i date
    obtain ⟨e, now, ha, hv, hc, hd⟩ := hp
    have hb := byId_mem h.wf.outQueue ha.1
    have he : s.db.removeOutQueue i date = .ok { s.db with
        messages := updateId e.msgID (fun m => { m with date := date, sent := true }) s.db.messages
        outQueue := deleteId i s.db.outQueue } := by unfold Db.removeOutQueue; rw [hb]
    rw [he]
    refine inv_op h (op := .removeOutQueue i date) he trivial ?_ ?_ trivial
    · exact fun x hx => .inl ⟨x, (mem_deleteId.mp hx).1, rfl⟩
    · refine text_update (f := fun m => { m with date := date, sent := true }) (fun m => ⟨rfl, rfl, rfl, rfl, rfl⟩) fun m hm _ => .inr ?_
      obtain ⟨b1, _, enc, a, _, b⟩ := h.made _ ha.1 m hm
      exact ⟨enc, _, e.msg, now, a, b hv, hc, by rw [hd, b1]⟩
  · -- undelivered
    split
    · exact inv_fail h
    rename_i recv _ x hx
    unfold St.picked
    split
    · exact inv_pc h trivial
    rename_i x
    have := undelivered_picked h hx
    split
    · exact inv_pc h trivial
    split
    · exact inv_pc (tried := s.tried) h this
    · exact inv_pc (tried := s.tried) h this
  · split
    · exact inv_fail h
    · exact inv_pc (tried := s.tried) h hp
  · -- encrypt
    split
    · exact inv_fail h
    · exact inv_event (tried := s.tried) h (fun _ h => Ev.noConfusion h) ⟨hp, since_head nofun⟩
  · -- add
    rename_i recv x enc na
    obtain ⟨⟨m, h1, h2, h3, h4, h5, h6, h7, h8⟩, hc⟩ := hp
    cases he : s.db.addOutQueue I s.nym x.msgNum enc na x.minDelay x.maxDelay with
    | error e => exact inv_fail h
    | ok d =>
      simp only [St.after]
      refine inv_op h (op := .addOutQueue s.nym x.msgNum enc na x.minDelay x.maxDelay) he ⟨m, h1, h2, h3⟩ ?_ ?_ trivial
      · simp only [Db.addOutQueue, h3, byId_mem h.wf.messages h1] at he
        split at he
        · cases he
        injection he with he; subst he
        intro y hy
        rcases mem_insert.mp hy with hy | rfl
        · exact .inl ⟨y, hy, rfl⟩
        · refine .inr fun m' hm' => ?_
          have := sorted_unique h.wf.messages hm' h1 rfl
          injection this with _ this
          subst this
          rw [h4, h5, h6] at hc
          exact ⟨h7, h8, _, hc, fun _ => rfl, nofun⟩
      · simp only [Db.addOutQueue, h3, byId_mem h.wf.messages h1] at he
        split at he
        · cases he
        injection he with he; subst he
        exact text_update (f := fun m => { m with toSend := false }) (fun m => ⟨rfl, rfl, rfl, rfl, rfl⟩) fun m _ hs => .inl ⟨hs, rfl⟩
  · exact h
  · exact h

theorem inv_act {s : St} (h : Inv I s) (a : Act) : Inv I (s.act I a) := by
  cases a with
  | step r => exact inv_step h r
  | crash => exact inv_fail h
  | start ns => exact inv_start h ns
  | user op =>
    simp only [St.act]
    split
    · rename_i hc
      rw [Bool.and_eq_true] at hc
      exact inv_user h op hc.1 hc.2
    · exact h

theorem inv_run {s : St} (h : Inv I s) (as : List Act) : Inv I (s.run I as) := by
  induction as generalizing s with
  | nil => exact h
  | cons a as ih => exact ih (inv_act h a)

end Verif.Ctrl

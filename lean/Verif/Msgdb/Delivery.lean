/-
The delivery states of outgoing messages.
-/
import Verif.Msgdb.Props

namespace Verif.Msgdb
open Verif.Sql

variable {I : Ids} {db db' : Db}

/-- The number of entries of the out-queue for a message. -/
def queued (q : Table OutEntry) (i : Nat) : Nat := (q.filter fun r => r.2.msgID == i).length

/-- The message waits to be encrypted and queued. -/
def Waiting (q : Table OutEntry) (i : Nat) (m : Message) : Prop := m.toSend = true ∧ queued q i = 0 ∧ m.sent = false

/-- The message has exactly one entry in the out-queue. -/
def Queued (q : Table OutEntry) (i : Nat) (m : Message) : Prop := m.toSend = false ∧ queued q i = 1 ∧ m.sent = false

/-- The message was sent and has no entry in the out-queue. -/
def Sent (q : Table OutEntry) (i : Nat) (m : Message) : Prop := m.toSend = false ∧ queued q i = 0 ∧ m.sent = true

/-- The invariant: every outgoing message is in one of the three states, received messages are in
none, and an entry of the out-queue belongs to the nym of its message. -/
structure Del (ms : Table Message) (q : Table OutEntry) : Prop where
  out : ∀ i m, (i, m) ∈ ms → m.outgoing = true → Waiting q i m ∨ Queued q i m ∨ Sent q i m
  inc : ∀ i m, (i, m) ∈ ms → m.outgoing = false → m.toSend = false ∧ queued q i = 0 ∧ m.sent = false
  own : ∀ e ∈ q, ∃ m, (e.2.msgID, m) ∈ ms ∧ m.self = e.2.self

/-- What the users of the database do before queueing: the message exists, belongs to the nym and
waits. `GetUndeliveredMessage` returns such messages. -/
def Disciplined (db : Db) : Op → Prop
  | .addOutQueue my i _ _ _ _ => ∃ m, (i, m) ∈ db.messages ∧ m.toSend = true ∧ db.nymUID my = some m.self
  | _ => True

/-- A history in which every message is queued only while it waits. -/
def DisciplinedRun (I : Ids) : Db → List Op → Prop
  | _, [] => True
  | db, op :: ops => Disciplined db op ∧ DisciplinedRun I (db.step I op) ops

/-! ### counting -/

theorem queued_insert (q : Table OutEntry) (e : OutEntry) (i : Nat) : queued (insert q e) i = queued q i + if e.msgID = i then 1 else 0 := by
  unfold queued Sql.insert
  rw [List.filter_append, List.length_append, List.filter_cons]
  by_cases h : e.msgID = i
  · simp [h]
  · simp [h]

theorem queued_map (q : Table OutEntry) (f : Nat × OutEntry → Nat × OutEntry) (hf : ∀ r, (f r).2.msgID = r.2.msgID) (i : Nat) : queued (q.map f) i = queued q i := by
  unfold queued
  rw [List.filter_map, List.length_map]
  congr 1
  exact List.filter_congr fun r _ => by simp only [Function.comp, hf]

theorem queued_keep (q : Table OutEntry) (p : Nat × OutEntry → Bool) (i : Nat) (h : ∀ r ∈ q, r.2.msgID = i → p r = true) : queued (q.filter p) i = queued q i := by
  unfold queued
  rw [List.filter_filter]
  congr 1
  refine List.filter_congr fun r hr => ?_
  by_cases e : r.2.msgID = i
  · simp [e, h r hr e]
  · simp [e]

theorem queued_drop (q : Table OutEntry) (p : Nat × OutEntry → Bool) (i : Nat) (h : ∀ r ∈ q, r.2.msgID = i → p r = false) : queued (q.filter p) i = 0 := by
  unfold queued
  rw [List.filter_filter, List.length_eq_zero_iff, List.filter_eq_nil_iff]
  intro r hr
  by_cases e : r.2.msgID = i
  · simp [h r hr e]
  · simp [e]

theorem queued_zero {q : Table OutEntry} {i : Nat} (h : ∀ r ∈ q, r.2.msgID ≠ i) : queued q i = 0 := by
  unfold queued
  rw [List.length_eq_zero_iff, List.filter_eq_nil_iff]
  intro r hr
  simp [h r hr]

theorem queued_pos {q : Table OutEntry} {r : Nat × OutEntry} (h : r ∈ q) : 0 < queued q r.2.msgID :=
  List.length_pos_of_mem (List.mem_filter.mpr ⟨h, by simp⟩)

theorem filter_ne_self {α : Type} {t : Table α} {j : Nat} (h : ∀ r ∈ t, r.1 ≠ j) : deleteId j t = t := by
  unfold deleteId
  rw [List.filter_eq_self]
  intro r hr
  simp [h r hr]

theorem queued_deleteId {q : Table OutEntry} (hs : Sorted q) {j : Nat} {e : OutEntry} (h : (j, e) ∈ q) (i : Nat) :
    queued q i = queued (deleteId j q) i + if e.msgID = i then 1 else 0 := by
  induction q with
  | nil => cases h
  | cons r t ih =>
    have hp := List.pairwise_cons.mp hs.1
    have hs' : Sorted t := ⟨hp.2, fun r hr => hs.2 r (List.mem_cons_of_mem _ hr)⟩
    rcases List.mem_cons.mp h with h | h
    · subst h
      have : deleteId j ((j, e) :: t) = t := by
        rw [show deleteId j ((j, e) :: t) = deleteId j t by simp [deleteId]]
        exact filter_ne_self fun r hr => by have := hp.1 r hr; simp only at this; omega
      rw [this]
      unfold queued
      rw [List.filter_cons]
      by_cases hi : e.msgID = i <;> simp [hi]
    · have hne : r.1 ≠ j := by have := hp.1 _ h; simp only at this; omega
      have h1 := ih hs' h
      have : deleteId j (r :: t) = r :: deleteId j t := by simp [deleteId, hne]
      rw [this]
      unfold queued at h1 ⊢
      rw [List.filter_cons, List.filter_cons]
      by_cases hi : r.2.msgID = i <;> simp [hi] <;> omega

/-! ### the operations -/

/-- Messages in the same state as before. -/
theorem Del.congr {ms ms' : Table Message} {q q' : Table OutEntry} (h : Del ms q)
    (hm : ∀ i m', (i, m') ∈ ms' → ∃ m, (i, m) ∈ ms ∧ m'.outgoing = m.outgoing ∧ m'.toSend = m.toSend ∧ m'.sent = m.sent ∧ queued q' i = queued q i)
    (ho : ∀ e ∈ q', ∃ m, (e.2.msgID, m) ∈ ms' ∧ m.self = e.2.self) : Del ms' q' where
  out := fun i m' hi ho => by
    obtain ⟨m, h1, h2, h3, h4, h5⟩ := hm i m' hi
    rcases h.out i m h1 (by rw [← h2]; exact ho) with a | a | a
    · exact .inl ⟨by rw [h3]; exact a.1, by rw [h5]; exact a.2.1, by rw [h4]; exact a.2.2⟩
    · exact .inr (.inl ⟨by rw [h3]; exact a.1, by rw [h5]; exact a.2.1, by rw [h4]; exact a.2.2⟩)
    · exact .inr (.inr ⟨by rw [h3]; exact a.1, by rw [h5]; exact a.2.1, by rw [h4]; exact a.2.2⟩)
  inc := fun i m' hi ho => by
    obtain ⟨m, h1, h2, h3, h4, h5⟩ := hm i m' hi
    obtain ⟨a, b, c⟩ := h.inc i m h1 (by rw [← h2]; exact ho)
    exact ⟨by rw [h3]; exact a, by rw [h5]; exact b, by rw [h4]; exact c⟩
  own := ho

theorem del_new : Del Db.new.messages Db.new.outQueue := ⟨nofun, nofun, nofun⟩

theorem queued_fresh (hw : WF I db) : queued db.outQueue (nextId db.messages) = 0 := queued_zero fun r hr e => by
  obtain ⟨m, hm⟩ := hw.outMessage r hr
  have := lt_nextId db.messages hm
  simp only at this
  omega

theorem del_insert (hw : WF I db) (h : Del db.messages db.outQueue) (m : Message) (hm : m.toSend = m.outgoing) (hs : m.sent = false) :
    Del (insert db.messages m) db.outQueue where
  out := fun i m' hi ho => by
    rcases mem_insert.mp hi with hi | hi
    · exact h.out i m' hi ho
    · injection hi with h1 h2
      subst h1; subst h2
      exact .inl ⟨by rw [hm, ho], queued_fresh hw, hs⟩
  inc := fun i m' hi ho => by
    rcases mem_insert.mp hi with hi | hi
    · exact h.inc i m' hi ho
    · injection hi with h1 h2
      subst h1; subst h2
      exact ⟨by rw [hm, ho], queued_fresh hw, hs⟩
  own := fun e he => by
    obtain ⟨m, h1, h2⟩ := h.own e he
    exact ⟨m, mem_insert.mpr (.inl h1), h2⟩

/-- Changing entries of the out-queue but not the nym and message they belong to. -/
theorem del_queue (h : Del db.messages db.outQueue) (f : Nat × OutEntry → Nat × OutEntry)
    (hf : ∀ r, (f r).2.msgID = r.2.msgID ∧ (f r).2.self = r.2.self) : Del db.messages (db.outQueue.map f) :=
  h.congr (fun i m hi => ⟨m, hi, rfl, rfl, rfl, queued_map _ _ (fun r => (hf r).1) i⟩) fun e he => by
    obtain ⟨r, hr, rfl⟩ := List.mem_map.mp he
    rw [(hf r).1, (hf r).2]
    exact h.own r hr

theorem del_cascade (hw : WF I db) (h : Del db.messages db.outQueue) (u : Nat) : Del (db.cascade u).messages (db.cascade u).outQueue := by
  have keep : ∀ r ∈ db.outQueue, ∀ m, (r.2.msgID, m) ∈ db.messages → m.self ≠ u →
      (r.2.self == u || ((select (fun m : Message => m.self == u) db.messages).map Prod.fst).contains r.2.msgID) = false := by
    intro r hr m hm hs
    obtain ⟨m', h1, h2⟩ := h.own r hr
    have := sorted_unique hw.messages hm h1 rfl
    injection this with _ this
    subst this
    rw [Bool.or_eq_false_iff]
    refine ⟨by rw [← h2]; simpa using hs, ?_⟩
    rw [Bool.eq_false_iff]
    intro hc
    obtain ⟨x, hx, e⟩ := List.mem_map.mp (List.contains_iff_mem.mp hc)
    obtain ⟨x1, x2⟩ := List.mem_filter.mp hx
    have := sorted_unique hw.messages x1 hm e
    rw [this] at x2
    exact hs (eq_of_beq x2)
  refine h.congr ?_ ?_
  · intro i m hi
    simp only [Db.cascade] at hi
    obtain ⟨h1, h2⟩ := mem_delete.mp hi
    refine ⟨m, h1, rfl, rfl, rfl, ?_⟩
    simp only [Db.cascade, delete]
    refine queued_keep _ _ _ fun r hr e => ?_
    rw [keep r hr m (by rw [e]; exact h1) (by simpa using h2)]
    rfl
  · intro e he
    simp only [Db.cascade] at he ⊢
    obtain ⟨h1, h2⟩ := mem_delete.mp he
    obtain ⟨m, h3, h4⟩ := h.own e h1
    refine ⟨m, mem_delete.mpr ⟨h3, ?_⟩, h4⟩
    rw [h4]
    exact (Bool.or_eq_false_iff.mp h2).1

theorem del_delMessage (h : Del db.messages db.outQueue) (n : Nat) :
    Del (deleteId n db.messages) (delete (fun o : OutEntry => o.msgID == n) db.outQueue) := by
  refine h.congr ?_ ?_
  · intro i m hi
    obtain ⟨h1, h2⟩ := mem_deleteId.mp hi
    refine ⟨m, h1, rfl, rfl, rfl, queued_keep _ _ _ fun r hr e => ?_⟩
    simpa [e] using h2
  · intro e he
    obtain ⟨h1, h2⟩ := mem_delete.mp he
    obtain ⟨m, h3, h4⟩ := h.own e h1
    exact ⟨m, mem_deleteId.mpr ⟨h3, by simpa using h2⟩, h4⟩

theorem del_addOut (hw : WF I db) (h : Del db.messages db.outQueue) {n : Nat} {m0 : Message} (hm0 : (n, m0) ∈ db.messages) (ht : m0.toSend = true)
    (e : OutEntry) (he : e.msgID = n) (hes : e.self = m0.self) :
    Del (updateId n (fun m => { m with toSend := false }) db.messages) (insert db.outQueue e) where
  out := fun i m' hi ho => by
    rcases mem_updateId.mp hi with ⟨h1, h2⟩ | ⟨a, h1, h2⟩
    · have hq : queued (insert db.outQueue e) i = queued db.outQueue i := by
        rw [queued_insert, he, if_neg (Ne.symm h2)]; rfl
      rcases h.out i m' h1 ho with a | a | a
      · exact .inl ⟨a.1, by rw [hq]; exact a.2.1, a.2.2⟩
      · exact .inr (.inl ⟨a.1, by rw [hq]; exact a.2.1, a.2.2⟩)
      · exact .inr (.inr ⟨a.1, by rw [hq]; exact a.2.1, a.2.2⟩)
    · injection h2 with e1 e2
      subst e1; subst e2
      have := sorted_unique hw.messages h1 hm0 rfl
      injection this with _ this
      subst this
      refine .inr (.inl ⟨rfl, ?_, ?_⟩)
      · rw [queued_insert, he, if_pos rfl]
        rcases h.out i a h1 ho with b | b | b
        · rw [b.2.1]
        · rw [b.1] at ht; cases ht
        · rw [b.1] at ht; cases ht
      · rcases h.out i a h1 ho with b | b | b
        · exact b.2.2
        · exact b.2.2
        · rw [b.1] at ht; cases ht
  inc := fun i m' hi ho => by
    rcases mem_updateId.mp hi with ⟨h1, h2⟩ | ⟨a, h1, h2⟩
    · obtain ⟨b1, b2, b3⟩ := h.inc i m' h1 ho
      refine ⟨b1, ?_, b3⟩
      rw [queued_insert, he, if_neg (Ne.symm h2)]; exact b2
    · injection h2 with e1 e2
      subst e1; subst e2
      have := sorted_unique hw.messages h1 hm0 rfl
      injection this with _ this
      subst this
      obtain ⟨b1, _⟩ := h.inc i a h1 ho
      rw [b1] at ht; cases ht
  own := fun x hx => by
    rcases mem_insert.mp hx with hx | rfl
    · obtain ⟨m, h1, h2⟩ := h.own x hx
      obtain ⟨b, hb, rfl | rfl⟩ := to_updateId n (fun m : Message => { m with toSend := false }) h1
      · exact ⟨_, hb, h2⟩
      · exact ⟨_, hb, h2⟩
    · simp only [he]
      obtain ⟨b, hb, rfl | rfl⟩ := to_updateId n (fun m : Message => { m with toSend := false }) hm0
      · exact ⟨_, hb, hes.symm⟩
      · exact ⟨_, hb, hes.symm⟩

/-- Taking an entry out of the queue and marking its message as waiting or sent. -/
theorem del_leave (hw : WF I db) (h : Del db.messages db.outQueue) {j : Nat} {e : OutEntry} (he : (j, e) ∈ db.outQueue) (f : Message → Message)
    (hf : ∀ m, (f m).outgoing = m.outgoing ∧ (f m).self = m.self ∧
      (m.toSend = false → m.sent = false → ((f m).toSend = true ∧ (f m).sent = false) ∨ ((f m).toSend = false ∧ (f m).sent = true))) :
    Del (updateId e.msgID f db.messages) (deleteId j db.outQueue) := by
  have qd := queued_deleteId hw.outQueue he
  have hpos := queued_pos he
  refine ⟨?_, ?_, ?_⟩
  · intro i m' hi ho
    rcases mem_updateId.mp hi with ⟨h1, h2⟩ | ⟨a, h1, h2⟩
    · have hq : queued (deleteId j db.outQueue) i = queued db.outQueue i := by
        rw [qd i, if_neg (Ne.symm h2)]; rfl
      rcases h.out i m' h1 ho with a | a | a
      · exact .inl ⟨a.1, by rw [hq]; exact a.2.1, a.2.2⟩
      · exact .inr (.inl ⟨a.1, by rw [hq]; exact a.2.1, a.2.2⟩)
      · exact .inr (.inr ⟨a.1, by rw [hq]; exact a.2.1, a.2.2⟩)
    · simp only [Prod.mk.injEq] at h2
      obtain ⟨e1, e2⟩ := h2
      subst e1; subst e2
      rw [(hf a).1] at ho
      simp only at hpos
      have q1 := qd e.msgID
      rw [if_pos rfl] at q1
      rcases h.out e.msgID a h1 ho with b | b | b
      · rw [b.2.1] at hpos; cases hpos
      · have hq : queued (deleteId j db.outQueue) e.msgID = 0 := by have := b.2.1; omega
        rcases (hf a).2.2 b.1 b.2.2 with c | c
        · exact .inl ⟨c.1, hq, c.2⟩
        · exact .inr (.inr ⟨c.1, hq, c.2⟩)
      · rw [b.2.1] at hpos; cases hpos
  · intro i m' hi ho
    rcases mem_updateId.mp hi with ⟨h1, h2⟩ | ⟨a, h1, h2⟩
    · obtain ⟨b1, b2, b3⟩ := h.inc i m' h1 ho
      refine ⟨b1, ?_, b3⟩
      have := qd i
      rw [if_neg (Ne.symm h2)] at this
      omega
    · simp only [Prod.mk.injEq] at h2
      obtain ⟨e1, e2⟩ := h2
      subst e1; subst e2
      rw [(hf a).1] at ho
      simp only at hpos
      obtain ⟨_, b2, _⟩ := h.inc e.msgID a h1 ho
      rw [b2] at hpos; cases hpos
  · intro x hx
    obtain ⟨h1, _⟩ := mem_deleteId.mp hx
    obtain ⟨m, h3, h4⟩ := h.own x h1
    obtain ⟨b, hb, rfl | rfl⟩ := to_updateId e.msgID f h3
    · exact ⟨_, hb, h4⟩
    · exact ⟨_, hb, by rw [(hf m).2.1]; exact h4⟩

theorem del_apply (hw : WF I db) (h : Del db.messages db.outQueue) (op : Op) (hd : Disciplined db op) (he : db.apply I op = .ok db') :
    Del db'.messages db'.outQueue := by
  cases op with
  | delNym m =>
    obtain ⟨u, n, _, _, rfl⟩ := delNym_ok he
    exact del_cascade hw h u
  | addMessage s p d b m g mi ma =>
    simp only [Db.apply, Db.addMessage] at he
    repeat' split at he
    all_goals first
      | cases he; done
      | (injection he with he; subst he; exact del_insert hw h _ rfl rfl)
  | readMessage n =>
    injection he with he; subst he
    refine h.congr ?_ ?_
    · intro i m' hi
      simp only [Db.readMessage] at hi
      obtain ⟨a, ha, e | ⟨_, e⟩⟩ := of_updateId hi
      · simp only at e; subst e; exact ⟨_, ha, rfl, rfl, rfl, rfl⟩
      · simp only at e; subst e; exact ⟨_, ha, rfl, rfl, rfl, rfl⟩
    · intro e he
      obtain ⟨m, h3, h4⟩ := h.own e he
      obtain ⟨b, hb, rfl | rfl⟩ := to_updateId n (fun m : Message => { m with read := true }) h3
      · exact ⟨_, hb, h4⟩
      · exact ⟨_, hb, h4⟩
  | delMessage my n =>
    simp only [Db.apply, Db.delMessage] at he
    repeat' split at he
    all_goals first
      | cases he; done
      | (injection he with he; subst he; exact del_delMessage h n)
  | addOutQueue my n e a mi ma =>
    obtain ⟨m0, hm0, ht, hn⟩ := hd
    simp only [Db.apply, Db.addOutQueue] at he
    split at he
    · cases he
    rw [hn] at he
    simp only at he
    split at he
    · cases he
    injection he with he; subst he
    exact del_addOut hw h hm0 ht _ rfl rfl
  | setOutQueue i m =>
    injection he with he; subst he
    exact del_queue h _ fun r => by split <;> exact ⟨rfl, rfl⟩
  | removeOutQueue i d =>
    simp only [Db.apply, Db.removeOutQueue] at he
    split at he
    · cases he
    rename_i e hi
    injection he with he; subst he
    exact del_leave hw h (byId_some hi) (fun m => { m with date := d, sent := true }) fun m => ⟨rfl, rfl, fun a b => .inr ⟨a, rfl⟩⟩
  | retractOutQueue i =>
    simp only [Db.apply, Db.retractOutQueue] at he
    split at he
    · cases he
    rename_i e hi
    injection he with he; subst he
    exact del_leave hw h (byId_some hi) (fun m => { m with toSend := true }) fun m => ⟨rfl, rfl, fun a b => .inl ⟨rfl, b⟩⟩
  | setResend i =>
    injection he with he; subst he
    exact del_queue h _ fun r => by split <;> exact ⟨rfl, rfl⟩
  | clearResend my =>
    simp only [Db.apply, Db.clearResend] at he
    split at he
    · cases he
    split at he
    · cases he
    injection he with he; subst he
    exact del_queue h _ fun r => by split <;> exact ⟨rfl, rfl⟩
  | removeInQueue i p f d =>
    simp only [Db.apply, Db.removeInQueue] at he
    split at he
    · cases he
    split at he
    · cases he
    split at he
    · cases he
    split at he
    · cases he
    injection he with he; subst he
    cases d with
    | true => exact h
    | false => exact del_insert hw h _ rfl rfl
  | _ =>
    simp only [Db.apply, Db.addValue, Db.addNym, Db.setUpkeepAll, Db.setUpkeepAccounts, Db.addContact, Db.removeContact,
      Db.addAccount, Db.setAccountTime, Db.setAccountLastMsg, Db.addInQueue, Db.setInQueue, Db.delInQueue, Db.addCache, Db.removeCache] at he
    repeat' split at he
    all_goals first
      | cases he; done
      | (injection he with he; subst he; exact h)

theorem del_step (hw : WF I db) (h : Del db.messages db.outQueue) (op : Op) (hd : Disciplined db op) :
    Del (db.step I op).messages (db.step I op).outQueue := by
  unfold Db.step
  cases he : db.apply I op with
  | ok d => exact del_apply hw h op hd he
  | error e => exact h

theorem del_run (hw : WF I db) (h : Del db.messages db.outQueue) (ops : List Op) (hd : DisciplinedRun I db ops) :
    Del (db.run I ops).messages (db.run I ops).outQueue := by
  induction ops generalizing db with
  | nil => exact h
  | cons op ops ih => exact ih (wf_step hw op) (del_step hw h op hd.1) hd.2

/-- What `GetUndeliveredMessage` returns is disciplined: it waits and belongs to the nym. -/
theorem undelivered_disciplined (hw : WF I db) {my e a : Bytes} {mi ma : Int} {x : Undelivered} (h : db.getUndelivered I my = .ok (some x)) :
    Disciplined db (.addOutQueue my x.msgNum e a mi ma) := by
  unfold Db.getUndelivered at h
  split at h
  · cases h
  split at h
  · cases h
  rename_i u hu
  split at h
  · cases h
  rename_i i m hf
  rw [firstAsc_eq hw.messages] at hf
  obtain ⟨h1, h2⟩ := first_mem hf
  simp only [Bool.and_eq_true, beq_iff_eq] at h2
  split at h
  · cases h
  injection h with h
  injection h with h
  subst h
  exact ⟨m, h1, h2.2, by rw [h2.1]; exact hu⟩

/-- **C44** After every history in which messages are queued only while they wait (as
`GetUndeliveredMessage` returns them), every outgoing message is in exactly one of the states
waiting, queued exactly once and sent. -/
theorem C44_exactly_one_state_partial (ops : List Op) (hd : DisciplinedRun I Db.new ops) (hdb : db = Db.new.run I ops)
    (i : Nat) (m : Message) (hm : (i, m) ∈ db.messages) (ho : m.outgoing = true) :
    (Waiting db.outQueue i m ∧ ¬ Queued db.outQueue i m ∧ ¬ Sent db.outQueue i m) ∨
    (¬ Waiting db.outQueue i m ∧ Queued db.outQueue i m ∧ ¬ Sent db.outQueue i m) ∨
    (¬ Waiting db.outQueue i m ∧ ¬ Queued db.outQueue i m ∧ Sent db.outQueue i m) := by
  have h := del_run (I := I) wf_new del_new ops hd
  rw [← hdb] at h
  rcases h.out i m hm ho with a | a | a
  · refine .inl ⟨a, fun b => ?_, fun b => ?_⟩
    · have := b.1; rw [a.1] at this; cases this
    · have := b.1; rw [a.1] at this; cases this
  · refine .inr (.inl ⟨fun b => ?_, a, fun b => ?_⟩)
    · have := a.1; rw [b.1] at this; cases this
    · have := a.2.2; rw [b.2.2] at this; cases this
  · refine .inr (.inr ⟨fun b => ?_, fun b => ?_, a⟩)
    · have := a.1; rw [b.1] at this; cases this
    · have := b.2.2; rw [a.2.2] at this; cases this

/-- **C44** Once sent, a message stays sent under every further operation of that kind, until it is
deleted. -/
theorem C44_sent_is_final_partial (ops : List Op) (hd : DisciplinedRun I Db.new ops) (hdb : db = Db.new.run I ops)
    (i : Nat) (m : Message) (hm : (i, m) ∈ db.messages) (hs : Sent db.outQueue i m) (op : Op) (hop : Disciplined db op) :
    (∃ m', (i, m') ∈ (db.step I op).messages ∧ Sent (db.step I op).outQueue i m' ∧ m'.message = m.message) ∨
    ∀ m', (i, m') ∉ (db.step I op).messages := by
  have hw : WF I db := by rw [hdb]; exact wf_reach ops
  have h : Del db.messages db.outQueue := by rw [hdb]; exact del_run wf_new del_new ops hd
  have hnq : ∀ r ∈ db.outQueue, r.2.msgID ≠ i := fun r hr e => by
    have := queued_pos hr
    rw [e, hs.2.1] at this; cases this
  have stay : ∀ {m' : Message} {ms : Table Message} {q : Table OutEntry}, (i, m') ∈ ms → m'.toSend = m.toSend → m'.sent = m.sent → m'.message = m.message →
      (∀ r ∈ q, r.2.msgID ≠ i) → ∃ m', (i, m') ∈ ms ∧ Sent q i m' ∧ m'.message = m.message :=
    fun h1 h2 h3 h4 h5 => ⟨_, h1, ⟨by rw [h2]; exact hs.1, queued_zero h5, by rw [h3]; exact hs.2.2⟩, h4⟩
  unfold Db.step
  cases he : db.apply I op with
  | error e => exact .inl ⟨m, hm, hs, rfl⟩
  | ok d =>
    simp only
    cases op with
    | delNym k =>
      obtain ⟨u, n, _, _, rfl⟩ := delNym_ok he
      simp only [Db.cascade]
      by_cases hu : m.self = u
      · refine .inr fun m' hm' => ?_
        obtain ⟨h1, h2⟩ := mem_delete.mp hm'
        have := sorted_unique hw.messages hm h1 rfl
        injection this with _ this
        subst this
        simp [hu] at h2
      · exact .inl (stay (mem_delete.mpr ⟨hm, by simpa using hu⟩) rfl rfl rfl fun r hr => hnq r (mem_delete.mp hr).1)
    | addMessage s p d b k g mi ma =>
      simp only [Db.apply, Db.addMessage] at he
      repeat' split at he
      all_goals first
        | cases he; done
        | (injection he with he; subst he; exact .inl (stay (mem_insert.mpr (.inl hm)) rfl rfl rfl hnq))
    | readMessage n =>
      injection he with he; subst he
      dsimp only [Db.setOutQueue, Db.setResend, Db.readMessage]
      obtain ⟨b, hb, rfl | rfl⟩ := to_updateId n (fun m : Message => { m with read := true }) hm
      · exact .inl (stay hb rfl rfl rfl hnq)
      · exact .inl (stay hb rfl rfl rfl hnq)
    | delMessage my n =>
      simp only [Db.apply, Db.delMessage] at he
      repeat' split at he
      all_goals first
        | cases he; done
        | skip
      injection he with he; subst he
      dsimp only [Db.setOutQueue, Db.setResend, Db.readMessage]
      by_cases hn : i = n
      · exact .inr fun m' hm' => (mem_deleteId.mp hm').2 hn
      · exact .inl (stay (mem_deleteId.mpr ⟨hm, hn⟩) rfl rfl rfl fun r hr => hnq r (mem_delete.mp hr).1)
    | addOutQueue my n e a mi ma =>
      obtain ⟨m0, hm0, ht, hn⟩ := hop
      have hni : n ≠ i := by
        rintro rfl
        have := sorted_unique hw.messages hm hm0 rfl
        injection this with _ this
        subst this
        rw [hs.1] at ht; cases ht
      simp only [Db.apply, Db.addOutQueue] at he
      repeat' split at he
      all_goals first
        | cases he; done
        | skip
      injection he with he; subst he
      dsimp only [Db.setOutQueue, Db.setResend, Db.readMessage]
      refine .inl (stay (mem_updateId.mpr (.inl ⟨hm, Ne.symm hni⟩)) rfl rfl rfl fun r hr => ?_)
      rcases mem_insert.mp hr with hr | rfl
      · exact hnq r hr
      · exact hni
    | setOutQueue j x =>
      injection he with he; subst he
      dsimp only [Db.setOutQueue, Db.setResend, Db.readMessage]
      refine .inl (stay hm rfl rfl rfl fun r hr => ?_)
      obtain ⟨a, ha, e | ⟨_, e⟩⟩ := of_updateId hr
      · rw [e]; exact hnq _ ha
      · rw [e]; exact hnq _ ha
    | removeOutQueue j d =>
      simp only [Db.apply, Db.removeOutQueue] at he
      split at he
      · cases he
      rename_i e hi
      injection he with he; subst he
      dsimp only [Db.setOutQueue, Db.setResend, Db.readMessage]
      exact .inl (stay (mem_updateId.mpr (.inl ⟨hm, Ne.symm (hnq _ (byId_some hi))⟩)) rfl rfl rfl fun r hr => hnq r (mem_deleteId.mp hr).1)
    | retractOutQueue j =>
      simp only [Db.apply, Db.retractOutQueue] at he
      split at he
      · cases he
      rename_i e hi
      injection he with he; subst he
      dsimp only [Db.setOutQueue, Db.setResend, Db.readMessage]
      exact .inl (stay (mem_updateId.mpr (.inl ⟨hm, Ne.symm (hnq _ (byId_some hi))⟩)) rfl rfl rfl fun r hr => hnq r (mem_deleteId.mp hr).1)
    | setResend j =>
      injection he with he; subst he
      dsimp only [Db.setOutQueue, Db.setResend, Db.readMessage]
      refine .inl (stay hm rfl rfl rfl fun r hr => ?_)
      obtain ⟨a, ha, e | ⟨_, e⟩⟩ := of_updateId hr
      · rw [e]; exact hnq _ ha
      · rw [e]; exact hnq _ ha
    | clearResend my =>
      simp only [Db.apply, Db.clearResend] at he
      repeat' split at he
      all_goals first
        | cases he; done
        | skip
      injection he with he; subst he
      dsimp only [Db.setOutQueue, Db.setResend, Db.readMessage]
      refine .inl (stay hm rfl rfl rfl fun r hr => ?_)
      obtain ⟨a, ha, e | ⟨_, e⟩⟩ := of_update hr
      · rw [e]; exact hnq _ ha
      · rw [e]; exact hnq _ ha
    | removeInQueue j p f d =>
      simp only [Db.apply, Db.removeInQueue] at he
      repeat' split at he
      all_goals first
        | cases he; done
        | skip
      all_goals injection he with he; subst he
      · exact .inl ⟨m, hm, hs, rfl⟩
      · exact .inl (stay (mem_insert.mpr (.inl hm)) rfl rfl rfl hnq)
    | _ =>
      simp only [Db.apply, Db.addValue, Db.addNym, Db.setUpkeepAll, Db.setUpkeepAccounts, Db.addContact, Db.removeContact,
        Db.addAccount, Db.setAccountTime, Db.setAccountLastMsg, Db.addInQueue, Db.setInQueue, Db.delInQueue, Db.addCache, Db.removeCache] at he
      repeat' split at he
      all_goals first
        | cases he; done
        | (injection he with he; subst he; exact .inl ⟨m, hm, hs, rfl⟩)

/-- A nym with one message that is queued, retracted, queued again and sent. -/
def sendHistory : List Op :=
  [.addNym [1] [1] [], .addContact [1] [2] [2] [] 0, .addMessage [1] [2] 5 true [7, 8] false 0 0, .addOutQueue [1] 1 [9] [3] 0 0, .retractOutQueue 1,
    .addOutQueue [1] 1 [9] [3] 0 0, .setOutQueue 1 [10], .removeOutQueue 1 6]

def sentMessage : Message := ⟨1, 1, true, false, true, [1], [2], 6, [7, 8], [7, 8], false, 0, 0, false⟩

example : DisciplinedRun idI Db.new sendHistory :=
  ⟨trivial, trivial, trivial, ⟨_, .head _, rfl, rfl⟩, trivial, ⟨_, .head _, rfl, rfl⟩, trivial, trivial, trivial⟩

example : (1, sentMessage) ∈ (Db.new.run idI sendHistory).messages ∧ Sent (Db.new.run idI sendHistory).outQueue 1 sentMessage :=
  ⟨.head _, rfl, rfl, rfl⟩

/-- **C44** fails for unrestricted histories of the database interface: `AddOutQueue` does not look
at the state of the message, so a message can be queued twice and a sent message queued again. -/
theorem C44_unrestricted_violated :
    (∃ ops i m, (i, m) ∈ (Db.new.run idI ops).messages ∧ m.outgoing = true ∧ queued (Db.new.run idI ops).outQueue i = 2) ∧
    ∃ ops op i m m', (i, m) ∈ (Db.new.run idI ops).messages ∧ Sent (Db.new.run idI ops).outQueue i m ∧
      (i, m') ∈ ((Db.new.run idI ops).step idI op).messages ∧ queued ((Db.new.run idI ops).step idI op).outQueue i = 1 := by
  refine ⟨⟨sendHistory.take 4 ++ [.addOutQueue [1] 1 [9] [3] 0 0], 1, { sentMessage with sent := false, date := 5 }, .head _, rfl, rfl⟩, ?_⟩
  exact ⟨sendHistory, .addOutQueue [1] 1 [9] [3] 0 0, 1, sentMessage, sentMessage, .head _, ⟨rfl, rfl, rfl⟩, .head _, rfl⟩

end Verif.Msgdb

/-
If every call of another program succeeds, `msgSend` delivers everything.
-/
import Verif.Ctrl.SendTerm

namespace Verif.Ctrl
open Verif.Sql Verif.Msgdb

variable {I : Ids}

/-- Every call succeeds and gives some output. -/
structure Good (r : Reply) : Prop where
  env : ∃ x, r.env = some x ∧ x ≠ []
  outcome : r.outcome = .accepted
  address : ∃ x, r.address = some x
  enc : ∃ x na, r.enc = some (x, na) ∧ x ≠ []

/-- No call that succeeds gives an empty text. -/
def Filled (r : Reply) : Prop := r.env ≠ some [] ∧ ∀ na, r.enc ≠ some ([], na)

theorem Good.filled {r : Reply} (h : Good r) : Filled r := by
  obtain ⟨x, h1, h2⟩ := h.env
  obtain ⟨y, na, h3, h4⟩ := h.enc
  refine ⟨fun e => h2 ?_, fun na' e => h4 ?_⟩
  · rw [h1] at e; injection e
  · rw [h3] at e; injection e with e; injection e

/-- No entry of the out-queue is empty. -/
structure Full (s : St) : Prop where
  queue : ∀ r ∈ s.db.outQueue, r.2.msg ≠ []
  store : ∀ old i e env, s.pc = .store old i e env → env ≠ []
  add : ∀ recv x enc na, s.pc = .add recv x enc na → enc ≠ []

theorem full_pc {s : St} (h : ∀ r ∈ s.db.outQueue, r.2.msg ≠ []) (h1 : ∀ old i e env, s.pc ≠ .store old i e env) (h2 : ∀ recv x enc na, s.pc ≠ .add recv x enc na) : Full s :=
  ⟨h, fun _ _ _ _ e => absurd e (h1 _ _ _ _), fun _ _ _ _ e => absurd e (h2 _ _ _ _)⟩

theorem full_next {s : St} (h : ∀ r ∈ s.db.outQueue, r.2.msg ≠ []) : Full s.next := by
  unfold St.next
  split
  · exact full_pc h (fun _ _ _ _ h => Pc.noConfusion h) (fun _ _ _ _ h => Pc.noConfusion h)
  · exact full_pc h (fun _ _ _ _ h => Pc.noConfusion h) (fun _ _ _ _ h => Pc.noConfusion h)

theorem full_leave {s : St} (h : ∀ r ∈ s.db.outQueue, r.2.msg ≠ []) (b : Bool) : Full (s.leave b) := by
  unfold St.leave
  split
  · exact full_pc h (fun _ _ _ _ h => Pc.noConfusion h) (fun _ _ _ _ h => Pc.noConfusion h)
  · exact full_next h

theorem full_step {s : St} (h : Full s) (r : Reply) (hr : Filled r) : Full (s.step I r) := by
  have nc : ∀ {s : St} (_ : ∀ r ∈ s.db.outQueue, r.2.msg ≠ []) (pc : Pc) (_ : ∀ old i e env, pc ≠ .store old i e env) (_ : ∀ recv x enc na, pc ≠ .add recv x enc na) (l : List Ev) (t : List Nat),
      Full { s with pc := pc, log := l, tried := t } := fun h _ h1 h2 _ _ => full_pc h h1 h2
  have fl : Full s.fail := full_pc h.queue (fun _ _ _ _ h => Pc.noConfusion h) (fun _ _ _ _ h => Pc.noConfusion h)
  unfold St.step
  split <;> rename_i hpc
  · cases he : s.db.clearResend I s.nym with
    | error e => exact full_pc h.queue (fun _ _ _ _ h => Pc.noConfusion h) (fun _ _ _ _ h => Pc.noConfusion h)
    | ok d =>
      refine full_pc ?_ (fun _ _ _ _ h => Pc.noConfusion h) (fun _ _ _ _ h => Pc.noConfusion h)
      unfold Db.clearResend at he
      repeat' split at he
      all_goals first
        | cases he; done
        | skip
      injection he with he; subst he
      intro x hx
      simp only [St.after] at hx
      obtain ⟨a, ha, e | ⟨_, e⟩⟩ := of_update hx
      · rw [e]; exact h.queue _ ha
      · rw [e]; exact h.queue _ ha
  · split
    · exact fl
    unfold St.got
    split
    · exact full_leave h.queue _
    split
    · exact full_leave h.queue _
    split
    · exact full_pc h.queue (fun _ _ _ _ h => Pc.noConfusion h) (fun _ _ _ _ h => Pc.noConfusion h)
    · exact full_pc h.queue (fun _ _ _ _ h => Pc.noConfusion h) (fun _ _ _ _ h => Pc.noConfusion h)
  · split
    · exact fl
    rename_i env he
    refine ⟨h.queue, fun old i e env' e' => ?_, fun _ _ _ _ h => Pc.noConfusion h⟩
    injection e' with _ _ _ e'
    subst e'
    rintro rfl
    exact hr.1 he
  · rename_i old i e env
    refine full_pc ?_ (fun _ _ _ _ h => Pc.noConfusion h) (fun _ _ _ _ h => Pc.noConfusion h)
    intro x hx
    simp only [St.after, Db.setOutQueue] at hx
    obtain ⟨a, ha, e | ⟨_, e⟩⟩ := of_updateId hx
    · rw [e]; exact h.queue _ ha
    · rw [e]; exact h.store _ _ _ _ hpc
  · unfold St.delivered
    split <;> exact full_pc h.queue (fun _ _ _ _ h => Pc.noConfusion h) (fun _ _ _ _ h => Pc.noConfusion h)
  · rename_i old i
    cases he : s.db.retractOutQueue i with
    | error e => exact fl
    | ok d =>
      refine full_pc ?_ (fun _ _ _ _ h => Pc.noConfusion h) (fun _ _ _ _ h => Pc.noConfusion h)
      unfold Db.retractOutQueue at he
      split at he
      · cases he
      injection he with he; subst he
      exact fun x hx => h.queue x (mem_deleteId.mp hx).1
  · refine full_pc ?_ (fun _ _ _ _ h => Pc.noConfusion h) (fun _ _ _ _ h => Pc.noConfusion h)
    intro x hx
    simp only [St.after, Db.setResend] at hx
    obtain ⟨a, ha, e | ⟨_, e⟩⟩ := of_updateId hx
    · rw [e]; exact h.queue _ ha
    · rw [e]; exact h.queue _ ha
  · rename_i old i date
    cases he : s.db.removeOutQueue i date with
    | error e => exact fl
    | ok d =>
      refine full_pc ?_ (fun _ _ _ _ h => Pc.noConfusion h) (fun _ _ _ _ h => Pc.noConfusion h)
      unfold Db.removeOutQueue at he
      split at he
      · cases he
      injection he with he; subst he
      exact fun x hx => h.queue x (mem_deleteId.mp hx).1
  · split
    · exact fl
    unfold St.picked
    split
    · exact full_pc h.queue (fun _ _ _ _ h => Pc.noConfusion h) (fun _ _ _ _ h => Pc.noConfusion h)
    split
    · exact full_pc h.queue (fun _ _ _ _ h => Pc.noConfusion h) (fun _ _ _ _ h => Pc.noConfusion h)
    split <;> exact full_pc h.queue (fun _ _ _ _ h => Pc.noConfusion h) (fun _ _ _ _ h => Pc.noConfusion h)
  · split
    · exact fl
    · exact full_pc h.queue (fun _ _ _ _ h => Pc.noConfusion h) (fun _ _ _ _ h => Pc.noConfusion h)
  · split
    · exact fl
    rename_i enc na he
    refine ⟨h.queue, fun _ _ _ _ h => Pc.noConfusion h, fun recv x enc' na' e' => ?_⟩
    injection e' with _ _ e' _
    subst e'
    rintro rfl
    exact hr.2 _ he
  · rename_i recv x enc na
    cases he : s.db.addOutQueue I s.nym x.msgNum enc na x.minDelay x.maxDelay with
    | error e => exact fl
    | ok d =>
      refine full_pc ?_ (fun _ _ _ _ h => Pc.noConfusion h) (fun _ _ _ _ h => Pc.noConfusion h)
      unfold Db.addOutQueue at he
      repeat' split at he
      all_goals first
        | cases he; done
        | skip
      injection he with he; subst he
      intro y hy
      rcases mem_insert.mp hy with hy | rfl
      · exact h.queue y hy
      · exact h.add _ _ _ _ hpc
  · exact h
  · exact h

/-- The answers in a history. -/
def Act.filled : Act → Prop
  | .step r => Filled r
  | _ => True

theorem full_act {s : St} (hi : Inv I s) (h : Full s) (a : Act) (ha : a.filled) : Full (s.act I a) := by
  cases a with
  | step r => exact full_step h r ha
  | crash => exact full_pc h.queue (fun _ _ _ _ h => Pc.noConfusion h) (fun _ _ _ _ h => Pc.noConfusion h)
  | start ns => exact full_next (s := { s with todo := ns, pc := .done, tried := [] }) h.queue
  | user op =>
    simp only [St.act]
    split
    · rename_i hc
      rw [Bool.and_eq_true] at hc
      unfold St.user
      split
      · exact h
      rename_i d he
      have q := quiet_user hi.wf op hc.2 he
      exact ⟨fun r hr => h.queue r (q.queue r hr), h.store, h.add⟩
    · exact h

theorem full_run {s : St} (hi : Inv I s) (h : Full s) (as : List Act) (ha : ∀ a ∈ as, a.filled) : Full (s.run I as) := by
  induction as generalizing s with
  | nil => exact h
  | cons a as ih => exact ih (inv_act hi a) (full_act hi h a (ha a (.head _))) fun b hb => ha b (.tail _ hb)

theorem full_new : Full St.new := full_pc nofun (fun _ _ _ _ h => Pc.noConfusion h) (fun _ _ _ _ h => Pc.noConfusion h)

/-! ### a run without failures -/

/-- The nym has neither queued nor waiting messages. -/
def Clean (db : Db) (n : Bytes) : Prop :=
  (∀ r ∈ db.outQueue, db.nymUID n ≠ some r.2.self) ∧ ∀ r ∈ db.messages, r.2.toSend = true → db.nymUID n ≠ some r.2.self

/-- No entry of the nym is put off. -/
def NoResend (s : St) : Prop := ∀ r ∈ s.db.outQueue, s.db.nymUID s.nym = some r.2.self → r.2.resend = false

/-- No message of the nym waits. -/
def NoWaiting (s : St) : Prop := ∀ r ∈ s.db.messages, r.2.toSend = true → s.db.nymUID s.nym ≠ some r.2.self

/-- What is known at each place if there were no failures. -/
def PcGood (s : St) : Pc → Prop
  | .clear | .done => True
  | .get old | .create old _ _ | .store old _ _ _ | .deliver old _ _ _ | .remove old _ _ => NoResend s ∧ (old = false → NoWaiting s)
  | .undelivered _ | .address _ | .encrypt _ _ | .add _ _ _ _ => NoResend s
  | .retract _ _ | .resend _ _ | .failed => False

structure Live (I : Ids) (nyms : List Bytes) (s : St) : Prop where
  inv : Inv I s
  full : Full s
  known : ∀ n ∈ nyms, ∃ u, s.db.nymUID n = some u
  mem : s.pc.idle = false → s.nym ∈ nyms
  sub : ∀ n ∈ s.todo, n ∈ nyms
  cover : ∀ n ∈ nyms, Clean s.db n ∨ n ∈ s.todo ∨ (n = s.nym ∧ s.pc.idle = false)
  todo : s.pc = .done → ∀ n, n ∉ s.todo
  pc : PcGood s s.pc

/-- Entries and waiting messages come from earlier ones. -/
structure Fades (db d : Db) : Prop where
  nyms : d.nyms = db.nyms
  queue : ∀ r ∈ d.outQueue, ∃ x ∈ db.outQueue, r.2.self = x.2.self ∧ (r.2.resend = true → x.2.resend = true)
  messages : ∀ r ∈ d.messages, r.2.toSend = true → ∃ x ∈ db.messages, r.2.self = x.2.self ∧ x.2.toSend = true

theorem Fades.uid {db d : Db} (h : Fades db d) (n : Bytes) : d.nymUID n = db.nymUID n := by unfold Db.nymUID; rw [h.nyms]

theorem Fades.clean {db d : Db} (h : Fades db d) {n : Bytes} (hc : Clean db n) : Clean d n := by
  refine ⟨fun r hr => ?_, fun r hr ht => ?_⟩
  · obtain ⟨x, hx, e, _⟩ := h.queue r hr
    rw [h.uid, e]; exact hc.1 x hx
  · obtain ⟨x, hx, e, ht'⟩ := h.messages r hr ht
    rw [h.uid, e]; exact hc.2 x hx ht'

theorem Fades.noResend {s : St} {d : Db} (h : Fades s.db d) (hc : NoResend s) (pc : Pc) : NoResend { s with db := d, pc := pc } := by
  intro r hr hu
  obtain ⟨x, hx, e, hs⟩ := h.queue r hr
  have := hc x hx (by rw [← e, ← h.uid]; exact hu)
  cases hr' : r.2.resend with
  | false => rfl
  | true => rw [hs hr'] at this; cases this

theorem Fades.noWaiting {s : St} {d : Db} (h : Fades s.db d) (hc : NoWaiting s) (pc : Pc) : NoWaiting { s with db := d, pc := pc } := by
  intro r hr ht
  obtain ⟨x, hx, e, ht'⟩ := h.messages r hr ht
  have := hc x hx ht'
  simp only at this ⊢
  rw [h.uid, e]
  exact this

theorem live_pc {nyms : List Bytes} {s : St} (h : Live I nyms s) (hm : s.nym ∈ nyms) (hidle : s.pc.idle = false) {pc : Pc} {l : List Ev} {t : List Nat}
    (hi : Inv I { s with pc := pc, log := l, tried := t }) (hf : Full { s with pc := pc, log := l, tried := t }) (hn : pc.idle = false)
    (hp : PcGood { s with pc := pc, log := l, tried := t } pc) : Live I nyms { s with pc := pc, log := l, tried := t } :=
  ⟨hi, hf, h.known, fun _ => hm, h.sub, fun n hn' => by
    rcases h.cover n hn' with a | a | a
    · exact .inl a
    · exact .inr (.inl a)
    · exact .inr (.inr ⟨a.1, hn⟩), (fun e => by simp only at e; rw [e] at hn; cases hn), hp⟩

theorem live_op {nyms : List Bytes} {s : St} (h : Live I nyms s) (hm : s.nym ∈ nyms) {d : Db} {pc : Pc} {t : List Nat} (fd : Fades s.db d)
    (hi : Inv I { s with db := d, pc := pc, tried := t }) (hf : Full { s with db := d, pc := pc, tried := t }) (hn : pc.idle = false)
    (hp : PcGood { s with db := d, pc := pc, tried := t } pc) : Live I nyms { s with db := d, pc := pc, tried := t } :=
  ⟨hi, hf, fun n hn => by
    obtain ⟨u, hu⟩ := h.known n hn
    exact ⟨u, by rw [← hu]; exact fd.uid n⟩, fun _ => hm, h.sub, fun n hn' => by
    rcases h.cover n hn' with a | a | a
    · exact .inl (fd.clean a)
    · exact .inr (.inl a)
    · exact .inr (.inr ⟨a.1, hn⟩), (fun e => by simp only at e; rw [e] at hn; cases hn), hp⟩

theorem live_next {nyms : List Bytes} {s : St} (hi : Inv I s.next) (hf : Full s.next) (known : ∀ n ∈ nyms, ∃ u, s.db.nymUID n = some u)
    (sub : ∀ n ∈ s.todo, n ∈ nyms) (cover : ∀ n ∈ nyms, Clean s.db n ∨ n ∈ s.todo) : Live I nyms s.next := by
  cases ht : s.todo with
  | nil =>
    have e : s.next = { s with pc := .done } := by unfold St.next; rw [ht]
    rw [e] at hi hf ⊢
    refine ⟨hi, hf, known, nofun, sub, fun n hn => ?_, (fun _ n hn => by rw [ht] at hn; cases hn), trivial⟩
    rcases cover n hn with a | a
    · exact .inl a
    · rw [ht] at a; cases a
  | cons m todo =>
    have e : s.next = { s with nym := m, todo := todo, pc := .clear } := by unfold St.next; rw [ht]
    rw [e] at hi hf ⊢
    rw [ht] at sub cover
    refine ⟨hi, hf, known, fun _ => sub m (.head _), fun n hn => sub n (.tail _ hn), fun n hn => ?_, nofun, trivial⟩
    rcases cover n hn with a | a
    · exact .inl a
    · rcases List.mem_cons.mp a with rfl | a
      · exact .inr (.inr ⟨rfl, rfl⟩)
      · exact .inr (.inl a)

theorem mapped_of_uid {db : Db} (hw : WF I db) {n : Bytes} {u : Nat} (h : db.nymUID n = some u) : I.isMapped n ≠ false := by
  obtain ⟨k, h1, h2⟩ := nymUID_some h
  have := (hw.nymFits _ h1).1
  rw [← h2, this]
  nofun

theorem undelivered_none {db : Db} (hw : WF I db) {n : Bytes} (h : db.getUndelivered I n = .ok none) {r : Nat × Message} (hr : r ∈ db.messages) (ht : r.2.toSend = true) :
    db.nymUID n ≠ some r.2.self := by
  intro hu
  unfold Db.getUndelivered at h
  split at h
  · cases h
  rw [hu] at h
  simp only at h
  split at h
  · rename_i hf
    rw [firstAsc_eq hw.messages] at hf
    unfold first at hf
    have := List.find?_eq_none.mp hf r hr
    simp [ht] at this
  · split at h
    · cases h
    · injection h with h; cases h

theorem undelivered_ok {db : Db} (hw : WF I db) {n : Bytes} {u : Nat} (h : db.nymUID n = some u) : ∃ x, db.getUndelivered I n = .ok x := by
  unfold Db.getUndelivered
  rw [if_neg (mapped_of_uid hw h), h]
  simp only
  split
  · exact ⟨_, rfl⟩
  · rename_i i m hf
    rw [firstAsc_eq hw.messages] at hf
    have hm := first_mem hf
    rw [Bool.and_eq_true] at hm
    obtain ⟨k, h1, h2⟩ := hw.messagePeer _ hm.1
    have h3 := contactMapped_mem hw h1
    rw [h2, eq_of_beq hm.2.1] at h3
    simp only [h3]
    exact ⟨_, rfl⟩

/-- Mapped identities are not empty. -/
def Proper (I : Ids) : Prop := ∀ u, I.map u ≠ some []

theorem picked_named (hI : Proper I) {s : St} (h : Inv I s) {x : Undelivered} (hp : Picked s x) : x.contactID ≠ [] := by
  obtain ⟨m, h1, h2, h3, _, h5, _⟩ := hp
  have ho : m.outgoing = true := by
    cases ho : m.outgoing with
    | true => rfl
    | false => have := (h.del.inc _ m h1 ho).1; rw [h2] at this; cases this
  obtain ⟨k, hk, e⟩ := h.wf.messageName _ h1
  simp only [ho, if_true] at e
  have := (h.wf.contactFits _ hk).2.1
  rw [h5, ← e]
  intro e'
  simp only [e'] at this
  exact hI _ this

theorem live_step (hI : Proper I) {nyms : List Bytes} {s : St} (h : Live I nyms s) {r : Reply} (hr : Good r) : Live I nyms (s.step I r) := by
  have hi := inv_step h.inv r
  have hf := full_step (I := I) h.full r hr.filled
  have hp := h.pc
  have hok := h.inv.pc
  have hm := h.mem
  have hid : ∀ pc : Pc, s.pc = pc → pc.idle = false → s.pc.idle = false := fun _ e h => by rw [e]; exact h
  unfold St.step at hi hf ⊢
  split <;> rename_i hpc <;> rw [hpc] at hp hok hm <;> simp only [hpc] at hi hf <;> have hid := hid _ hpc
  · -- clear
    obtain ⟨u, hu⟩ := h.known _ (hm rfl)
    have he : s.db.clearResend I s.nym = .ok { s.db with outQueue := update (fun o : OutEntry => o.self == u && o.resend) (fun o => { o with resend := false }) s.db.outQueue } := by
      unfold Db.clearResend
      rw [if_neg (mapped_of_uid h.inv.wf hu), hu]
    rw [he] at hi hf ⊢
    refine live_op h (hm rfl) ⟨rfl, fun x hx => ?_, fun x hx ht => ⟨x, hx, rfl, ht⟩⟩ hi hf rfl ⟨fun x hx hxu => ?_, nofun⟩
    · simp only [St.after] at hx
      obtain ⟨a, ha, e | ⟨_, e⟩⟩ := of_update hx
      · exact ⟨_, ha, by rw [e], by rw [e]; exact id⟩
      · exact ⟨_, ha, by rw [e], by rw [e]; nofun⟩
    · simp only [St.after] at hx
      have hxu' : x.2.self = u := by
        have : s.db.nymUID s.nym = some x.2.self := hxu
        rw [hu] at this; injection this with this; exact this.symm
      rcases mem_update.mp hx with ⟨_, h2⟩ | ⟨a, _, _, h2⟩
      · simpa [hxu'] using h2
      · rw [h2]
  · -- get
    rename_i old
    obtain ⟨u, hu⟩ := h.known _ (hm rfl)
    have he : ∃ x, s.db.getOutQueue I s.nym = .ok x := by
      unfold Db.getOutQueue
      rw [if_neg (mapped_of_uid h.inv.wf hu), hu]
      exact ⟨_, rfl⟩
    obtain ⟨x, he⟩ := he
    simp only [he] at hi hf ⊢
    cases x with
    | none =>
      simp only [St.got] at hi hf ⊢
      cases old with
      | true => exact live_pc (l := s.log) (t := s.tried) h (hm rfl) (hid rfl) hi hf rfl hp.1
      | false =>
        simp only [St.leave] at hi hf ⊢
        refine live_next hi hf h.known h.sub fun n hn => ?_
        rcases h.cover n hn with a | a | a
        · exact .inl a
        · exact .inr a
        · rw [a.1]
          refine .inl ⟨fun y hy hu' => ?_, fun y hy ht => hp.2 rfl y hy ht⟩
          have h1 := hp.1 y hy hu'
          rw [out_none h.inv.wf he hy hu'] at h1
          cases h1
    | some x =>
      obtain ⟨i, e⟩ := x
      obtain ⟨h1, h2, h3, _⟩ := out_first h.inv.wf he
      simp only [St.got, if_neg (h.full.queue _ h1)] at hi hf ⊢
      split
      · rename_i hv
        rw [if_pos hv] at hi hf
        exact live_pc (l := s.log) (t := s.tried) h (hm rfl) (hid rfl) hi hf rfl hp
      · rename_i hv
        rw [if_neg hv] at hi hf
        exact live_pc (l := s.log) (t := s.tried) h (hm rfl) (hid rfl) hi hf rfl hp
  · -- create
    obtain ⟨env, h1, _⟩ := hr.env
    simp only [h1] at hi hf ⊢
    exact live_pc (t := s.tried) h (hm rfl) (hid rfl) hi hf rfl hp
  · -- store
    rename_i old i e env
    have fd : Fades s.db (s.db.setOutQueue i env) := ⟨rfl, fun x hx => by
        simp only [Db.setOutQueue] at hx
        obtain ⟨a, ha, e | ⟨_, e⟩⟩ := of_updateId hx
        · exact ⟨_, ha, by rw [e], by rw [e]; exact id⟩
        · exact ⟨_, ha, by rw [e], by rw [e]; exact id⟩, fun x hx ht => ⟨x, hx, rfl, ht⟩⟩
    exact live_op (t := s.tried) h (hm rfl) fd hi hf rfl ⟨fd.noResend hp.1 _, fun e => fd.noWaiting (hp.2 e) _⟩
  · -- deliver
    simp only [St.delivered, hr.outcome] at hi hf ⊢
    exact live_pc h (hm rfl) (hid rfl) hi hf rfl hp
  · exact hp.elim
  · exact hp.elim
  · -- remove
    rename_i old i date
    obtain ⟨e, _, ha, _⟩ := hok
    have he : s.db.removeOutQueue i date = .ok { s.db with
        messages := updateId e.msgID (fun m => { m with date := date, sent := true }) s.db.messages
        outQueue := deleteId i s.db.outQueue } := by unfold Db.removeOutQueue; rw [byId_mem h.inv.wf.outQueue ha.1]
    rw [he] at hi hf ⊢
    have fd : Fades s.db { s.db with
        messages := updateId e.msgID (fun m => { m with date := date, sent := true }) s.db.messages
        outQueue := deleteId i s.db.outQueue } := ⟨rfl, fun x hx => ⟨x, (mem_deleteId.mp hx).1, rfl, id⟩, fun x hx ht => by
        simp only at hx
        obtain ⟨a, ha, e | ⟨_, e⟩⟩ := of_updateId hx
        · exact ⟨_, ha, by rw [e], by rw [e] at ht; exact ht⟩
        · exact ⟨_, ha, by rw [e], by rw [e] at ht; exact ht⟩⟩
    exact live_op (t := s.tried) h (hm rfl) fd hi hf rfl ⟨fd.noResend hp.1 _, fun e => fd.noWaiting (hp.2 e) _⟩
  · -- undelivered
    rename_i recv
    obtain ⟨u, hu⟩ := h.known _ (hm rfl)
    obtain ⟨x, he⟩ := undelivered_ok h.inv.wf hu
    simp only [he] at hi hf ⊢
    cases x with
    | none =>
      exact live_pc (l := s.log) h (hm rfl) (hid rfl) hi hf rfl ⟨hp, fun _ x hx ht => undelivered_none h.inv.wf he hx ht⟩
    | some x =>
      have hn := picked_named hI h.inv (undelivered_picked h.inv he)
      simp only [St.picked, if_neg hn] at hi hf ⊢
      split
      · rename_i hv
        rw [if_pos hv] at hi hf
        exact live_pc (l := s.log) (t := s.tried) h (hm rfl) (hid rfl) hi hf rfl hp
      · rename_i hv
        rw [if_neg hv] at hi hf
        exact live_pc (l := s.log) (t := s.tried) h (hm rfl) (hid rfl) hi hf rfl hp
  · obtain ⟨a, h1⟩ := hr.address
    simp only [h1] at hi hf ⊢
    exact live_pc (l := s.log) (t := s.tried) h (hm rfl) (hid rfl) hi hf rfl hp
  · obtain ⟨enc, na, h1, _⟩ := hr.enc
    simp only [h1] at hi hf ⊢
    exact live_pc (t := s.tried) h (hm rfl) (hid rfl) hi hf rfl hp
  · -- add
    rename_i recv x enc na
    obtain ⟨⟨m, h1, h2, h3, _⟩, _⟩ := hok
    have he : s.db.addOutQueue I s.nym x.msgNum enc na x.minDelay x.maxDelay = .ok { s.db with
        messages := updateId x.msgNum (fun m => { m with toSend := false }) s.db.messages
        outQueue := Sql.insert s.db.outQueue ⟨m.self, x.msgNum, enc, na, x.minDelay, x.maxDelay, false, false⟩ } := by
      unfold Db.addOutQueue
      rw [if_neg (mapped_of_uid h.inv.wf h3), h3]
      simp only [byId_mem h.inv.wf.messages h1]
    rw [he] at hi hf ⊢
    refine ⟨hi, hf, h.known, fun _ => hm rfl, h.sub, fun n hn => ?_, nofun, fun y hy hu => ?_⟩
    · rcases h.cover n hn with a | a | a
      · refine .inl ⟨fun y hy => ?_, fun y hy ht => ?_⟩
        · rcases mem_insert.mp hy with hy | rfl
          · exact a.1 y hy
          · exact a.2 _ h1 h2
        · simp only [St.after] at hy
          obtain ⟨b, hb, e | ⟨_, e⟩⟩ := of_updateId hy
          · rw [e] at ht ⊢; exact a.2 _ hb ht
          · rw [e] at ht; cases ht
      · exact .inr (.inl a)
      · exact .inr (.inr ⟨a.1, rfl⟩)
    · rcases mem_insert.mp hy with hy | rfl
      · exact hp y hy hu
      · rfl
  · exact h
  · exact hp.elim

theorem live_steps (hI : Proper I) {nyms : List Bytes} {s : St} (h : Live I nyms s) (rs : List Reply) (hr : ∀ r ∈ rs, Good r) : Live I nyms (s.steps I rs) := by
  induction rs generalizing s with
  | nil => exact h
  | cons r rs ih => exact ih (live_step hI h (hr r (.head _))) fun x hx => hr x (.tail _ hx)

theorem live_start {nyms : List Bytes} {s : St} (h : Inv I s) (hf : Full s) (known : ∀ n ∈ nyms, ∃ u, s.db.nymUID n = some u) : Live I nyms (s.start nyms) :=
  live_next (s := { s with todo := nyms, pc := .done, tried := [] }) (inv_start h nyms) (full_next hf.queue) known (fun _ h => h) (fun _ h => .inr h)

end Verif.Ctrl

/-
`msgSend` terminates whatever the rest of the world answers.
-/
import Verif.Ctrl.SendInv

namespace Verif.Ctrl
open Verif.Sql Verif.Msgdb

variable {I : Ids}

/-- Whatever the answers are, the engine gets to a state with this property. -/
inductive Until (I : Ids) (P : St → Prop) : St → Prop
  | now {s : St} (h : P s) : Until I P s
  | step {s : St} (h : ∀ r, Until I P (s.step I r)) : Until I P s

theorem Until.bind {P Q : St → Prop} {s : St} (h : Until I P s) (hq : ∀ t, P t → Until I Q t) : Until I Q s := by
  induction h with
  | now h => exact hq _ h
  | step _ ih => exact .step ih

theorem Until.mono {P Q : St → Prop} {s : St} (h : Until I P s) (hq : ∀ t, P t → Q t) : Until I Q s := h.bind fun t ht => .now (hq t ht)

theorem Until.stream {P : St → Prop} {s : St} (h : Until I P s) (rs : Nat → Reply) : ∃ n, P (s.steps I ((List.range n).map rs)) := by
  induction h generalizing rs with
  | now h => exact ⟨0, h⟩
  | step _ ih =>
    obtain ⟨n, hn⟩ := ih (rs 0) (fun k => rs (k + 1))
    refine ⟨n + 1, ?_⟩
    rw [List.range_succ_eq_map, List.map_cons, List.map_map]
    exact hn

/-- The entries of the out-queue that this call of `procOutQueue` still has to look at. -/
def active (s : St) : Nat :=
  (s.db.outQueue.filter fun r => decide (s.db.nymUID s.nym = some r.2.self) && !r.2.resend).length

/-- The messages of the nym that wait. -/
def waiting (s : St) : Nat :=
  (s.db.messages.filter fun r => decide (s.db.nymUID s.nym = some r.2.self) && r.2.toSend).length

theorem filter_deleteId_lt {α : Type} {t : Table α} (p : Nat × α → Bool) {i : Nat} {a : α} (h : (i, a) ∈ t) (hp : p (i, a) = true) :
    ((deleteId i t).filter p).length < (t.filter p).length := by
  unfold deleteId
  rw [List.filter_filter]
  induction t with
  | nil => cases h
  | cons r t ih =>
    have le : ∀ l : Table α, (l.filter fun r => p r && !(r.1 == i)).length ≤ (l.filter p).length := by
      intro l
      induction l with
      | nil => exact Nat.le_refl _
      | cons x l ihl =>
        rw [List.filter_cons, List.filter_cons]
        cases p x <;> cases (x.1 == i) <;> simp only [Bool.and_true, Bool.and_false, Bool.not_true, Bool.not_false, Bool.false_eq_true, if_true, if_false, List.length_cons] <;> omega
    rw [List.filter_cons, List.filter_cons]
    rcases List.mem_cons.mp h with h | h
    · subst h
      have := le t
      simp only [hp, beq_self_eq_true, Bool.and_false, Bool.not_true, Bool.false_eq_true, if_true, if_false, List.length_cons]
      omega
    · have := ih h
      cases p r <;> cases (r.1 == i) <;> simp only [Bool.and_true, Bool.and_false, Bool.not_true, Bool.not_false, Bool.false_eq_true, if_true, if_false, List.length_cons] <;> omega

theorem filter_updateId_lt {α : Type} {t : Table α} (p : Nat × α → Bool) {i : Nat} {a : α} (f : α → α) (h : (i, a) ∈ t) (hp : p (i, a) = true)
    (hf : ∀ b, p (i, f b) = false) : ((updateId i f t).filter p).length < (t.filter p).length := by
  unfold updateId
  have le : ∀ l : Table α, ((l.map fun r => if r.1 == i then (r.1, f r.2) else r).filter p).length ≤ (l.filter p).length := by
    intro l
    induction l with
    | nil => exact Nat.le_refl _
    | cons x l ihl =>
      rw [List.map_cons, List.filter_cons, List.filter_cons]
      by_cases hx : x.1 = i
      · have : p (x.1, f x.2) = false := by rw [hx]; exact hf _
        simp only [hx, beq_self_eq_true, if_true] at this ⊢
        rw [this]
        simp only [Bool.false_eq_true, if_false]
        split <;> (try simp only [List.length_cons]) <;> omega
      · simp only [beq_eq_false_iff_ne.mpr hx, Bool.false_eq_true, if_false]
        split <;> (try simp only [List.length_cons]) <;> omega
  induction t with
  | nil => cases h
  | cons r t ih =>
    rw [List.map_cons, List.filter_cons, List.filter_cons]
    rcases List.mem_cons.mp h with h | h
    · subst h
      simp only [beq_self_eq_true, if_true, hf, hp, Bool.false_eq_true, if_false, List.length_cons]
      have := le t
      omega
    · have := ih h
      by_cases hx : r.1 = i
      · have : p (r.1, f r.2) = false := by rw [hx]; exact hf _
        simp only [hx, beq_self_eq_true, if_true] at this ⊢
        rw [this]
        simp only [Bool.false_eq_true, if_false]
        split <;> (try simp only [List.length_cons]) <;> omega
      · simp only [beq_eq_false_iff_ne.mpr hx, Bool.false_eq_true, if_false]
        split <;> (try simp only [List.length_cons]) <;> omega

theorem filter_updateId_eq {α : Type} (t : Table α) (p : Nat × α → Bool) (i : Nat) (f : α → α) (hf : ∀ b, p (i, f b) = p (i, b)) :
    ((updateId i f t).filter p).length = (t.filter p).length := by
  unfold updateId
  rw [List.filter_map, List.length_map]
  congr 1
  refine List.filter_congr fun r _ => ?_
  simp only [Function.comp]
  by_cases hx : r.1 = i
  · simp only [hx, beq_self_eq_true, if_true]
    rw [hf, ← hx]
  · simp only [beq_eq_false_iff_ne.mpr hx, Bool.false_eq_true, if_false]

theorem active_pred {s : St} {i : Nat} {e : OutEntry} (h : Active s i e) :
    (fun r : Nat × OutEntry => decide (s.db.nymUID s.nym = some r.2.self) && !r.2.resend) (i, e) = true := by
  simp [h.2.1, h.2.2]

/-- The end of an entry: the next one is looked for, and fewer entries are left. -/
def Fewer (I : Ids) (s : St) (old : Bool) (t : St) : Prop :=
  Inv I t ∧ t.pc = .get old ∧ t.nym = s.nym ∧ t.todo = s.todo ∧ active t < active s

/-- `procOutQueue` returned an error, or is about to return without one. -/
def Left (I : Ids) (s : St) (old : Bool) (t : St) : Prop :=
  t.pc.idle = true ∨ ∃ u, Inv I u ∧ u.nym = s.nym ∧ u.todo = s.todo ∧ t = u.leave old

theorem leave_ok {s : St} {i : Nat} {old : Bool} {e : OutEntry} (h : Inv I s) (ha : Active s i e)
    (hpc : s.pc = .retract old i ∨ s.pc = .resend old i ∨ ∃ d, s.pc = .remove old i d) (r : Reply) : Fewer I s old (s.step I r) := by
  have hi := inv_step h r
  have hb := byId_mem h.wf.outQueue ha.1
  have hp := active_pred ha
  rcases hpc with hpc | hpc | ⟨d, hpc⟩
  · have e : s.step I r = s.after (.get old) (s.db.retractOutQueue i) := by unfold St.step; rw [hpc]
    rw [e] at hi ⊢
    unfold Db.retractOutQueue at hi ⊢
    rw [hb] at hi ⊢
    exact ⟨hi, rfl, rfl, rfl, filter_deleteId_lt _ ha.1 hp⟩
  · have e : s.step I r = s.after (.get old) (.ok (s.db.setResend i)) := by unfold St.step; rw [hpc]
    rw [e] at hi ⊢
    exact ⟨hi, rfl, rfl, rfl, filter_updateId_lt (fun r : Nat × OutEntry => decide (s.db.nymUID s.nym = some r.2.self) && !r.2.resend) (fun o => { o with resend := true }) ha.1 hp fun b => by simp⟩
  · have e : s.step I r = s.after (.get old) (s.db.removeOutQueue i d) := by unfold St.step; rw [hpc]
    rw [e] at hi ⊢
    unfold Db.removeOutQueue at hi ⊢
    rw [hb] at hi ⊢
    exact ⟨hi, rfl, rfl, rfl, filter_deleteId_lt _ ha.1 hp⟩

theorem deliver_until {s : St} {i : Nat} {old : Bool} {e : OutEntry} {m : Bytes} (h : Inv I s) (hpc : s.pc = .deliver old i e m) :
    Until I (fun t => t.pc.idle = true ∨ Fewer I s old t) s := by
  have hp := h.pc
  rw [hpc] at hp
  obtain ⟨e', ha, _⟩ := hp
  refine .step fun r => ?_
  have hi := inv_step h r
  have ee : s.step I r = s.delivered old i e m r := by unfold St.step; rw [hpc]
  rw [ee] at hi ⊢
  unfold St.delivered at hi ⊢
  cases hr : r.outcome with
  | accepted =>
    rw [hr] at hi
    exact .step fun r' => .now (.inr (leave_ok hi ha (.inr (.inr ⟨_, rfl⟩)) r'))
  | resend =>
    rw [hr] at hi
    exact .step fun r' => .now (.inr (leave_ok hi ha (.inr (.inl rfl)) r'))
  | final =>
    rw [hr] at hi
    exact .step fun r' => .now (.inr (leave_ok hi ha (.inl rfl) r'))
  | failed => exact .now (.inl rfl)

theorem create_until {s : St} {i : Nat} {old : Bool} {e : OutEntry} (h : Inv I s) (hpc : s.pc = .create old i e) :
    Until I (fun t => t.pc.idle = true ∨ Fewer I s old t) s := by
  refine .step fun r => ?_
  have hi := inv_step h r
  have ee : s.step I r = match r.env with
      | none => s.fail
      | some env => { s with pc := .store old i e env, log := .created e.msgID e.msg e.nymaddress e.minDelay e.maxDelay env :: s.log } := by unfold St.step; rw [hpc]; all_goals rfl
  rw [ee] at hi ⊢
  cases hr : r.env with
  | none => exact .now (.inl rfl)
  | some env =>
    rw [hr] at hi
    simp only at hi ⊢
    refine .step fun r' => ?_
    have hi' := inv_step hi r'
    refine (deliver_until (i := i) (old := old) (e := e) (m := env) hi' rfl).mono fun t ht => ?_
    rcases ht with ht | ⟨h1, h2, h3, h4, h5⟩
    · exact .inl ht
    · refine .inr ⟨h1, h2, h3, h4, Nat.lt_of_lt_of_eq h5 ?_⟩
      exact filter_updateId_eq s.db.outQueue (fun r : Nat × OutEntry => decide (s.db.nymUID s.nym = some r.2.self) && !r.2.resend) i
        (fun o => { o with msg := env, envelope := true }) fun b => rfl

/-- `procOutQueue` terminates. -/
theorem proc_until {s : St} {old : Bool} (h : Inv I s) (hpc : s.pc = .get old) : Until I (Left I s old) s := by
  generalize hn : active s = n
  induction n using Nat.strongRecOn generalizing s with
  | _ n ih =>
    have fin : ∀ t, t.pc.idle = true ∨ Fewer I s old t → Until I (Left I s old) t := by
      intro t ht
      rcases ht with ht | ⟨h1, h2, h3, h4, h5⟩
      · exact .now (.inl ht)
      · refine (ih (active t) (by omega) h1 h2 rfl).mono fun u hu => ?_
        rcases hu with hu | ⟨v, h6, h7, h8, h9⟩
        · exact .inl hu
        · exact .inr ⟨v, h6, by rw [h7, h3], by rw [h8, h4], h9⟩
    refine .step fun r => ?_
    have hi := inv_step h r
    have ee : s.step I r = match s.db.getOutQueue I s.nym with
        | .error _ => s.fail
        | .ok x => s.got old x := by unfold St.step; rw [hpc]; all_goals rfl
    rw [ee] at hi ⊢
    cases hx : s.db.getOutQueue I s.nym with
    | error e => exact .now (.inl rfl)
    | ok x =>
      rw [hx] at hi
      simp only at hi ⊢
      cases x with
      | none => exact .now (.inr ⟨s, h, rfl, rfl, rfl⟩)
      | some x =>
        obtain ⟨i, e⟩ := x
        simp only [St.got] at hi ⊢
        split
        · exact .now (.inr ⟨s, h, rfl, rfl, rfl⟩)
        rename_i hm
        rw [if_neg hm] at hi
        split
        · rename_i hv
          rw [if_pos hv] at hi
          exact (deliver_until hi rfl).bind fun t ht => fin t ht
        · rename_i hv
          rw [if_neg hv] at hi
          exact (create_until hi rfl).bind fun t ht => fin t ht

/-- One message was queued. -/
def Shorter (I : Ids) (s t : St) : Prop :=
  Inv I t ∧ (∃ recv, t.pc = .undelivered recv) ∧ t.nym = s.nym ∧ t.todo = s.todo ∧ waiting t < waiting s

theorem encrypt_until {s : St} {recv : Bytes} {x : Undelivered} (h : Inv I s) (hpc : s.pc = .encrypt recv x) :
    Until I (fun t => t.pc.idle = true ∨ Shorter I s t) s := by
  refine .step fun r => ?_
  have hi := inv_step h r
  have ee : s.step I r = match r.enc with
      | none => s.fail
      | some (enc, na) => { s with pc := .add recv x enc na, log := .encrypted x.msgNum x.contactID x.msg x.sign enc na :: s.log } := by unfold St.step; rw [hpc]; all_goals rfl
  rw [ee] at hi ⊢
  cases hr : r.enc with
  | none => exact .now (.inl rfl)
  | some p =>
    obtain ⟨enc, na⟩ := p
    rw [hr] at hi
    simp only at hi ⊢
    refine .step fun r' => .now ?_
    have hi' := inv_step hi r'
    obtain ⟨⟨m, h1, h2, h3, _⟩, _⟩ := hi.pc
    simp only [St.step] at hi' ⊢
    cases he : s.db.addOutQueue I s.nym x.msgNum enc na x.minDelay x.maxDelay with
    | error e => exact .inl rfl
    | ok d =>
      rw [he] at hi'
      refine .inr ⟨hi', ⟨recv, rfl⟩, rfl, rfl, ?_⟩
      simp only at h1 h3
      simp only [Db.addOutQueue, h3, byId_mem h.wf.messages h1] at he
      split at he
      · cases he
      injection he with he; subst he
      exact filter_updateId_lt (fun r : Nat × Message => decide (s.db.nymUID s.nym = some r.2.self) && r.2.toSend)
        (fun m => { m with toSend := false }) h1 (by simp [h2, h3]) fun b => by simp

/-- All undelivered messages are queued, or an error is returned. -/
theorem undelivered_until {s : St} {recv : Bytes} (h : Inv I s) (hpc : s.pc = .undelivered recv) :
    Until I (fun t => t.pc.idle = true ∨ (Inv I t ∧ t.pc = .get false ∧ t.nym = s.nym ∧ t.todo = s.todo)) s := by
  generalize hn : waiting s = n
  induction n using Nat.strongRecOn generalizing s recv with
  | _ n ih =>
    have fin : ∀ t, t.pc.idle = true ∨ Shorter I s t → Until I (fun t => t.pc.idle = true ∨ (Inv I t ∧ t.pc = .get false ∧ t.nym = s.nym ∧ t.todo = s.todo)) t := by
      intro t ht
      rcases ht with ht | ⟨h1, ⟨recv', h2⟩, h3, h4, h5⟩
      · exact .now (.inl ht)
      · refine (ih (waiting t) (by omega) h1 h2 rfl).mono fun u hu => ?_
        rcases hu with hu | ⟨h6, h7, h8, h9⟩
        · exact .inl hu
        · exact .inr ⟨h6, h7, by rw [h8, h3], by rw [h9, h4]⟩
    refine .step fun r => ?_
    have hi := inv_step h r
    have ee : s.step I r = match s.db.getUndelivered I s.nym with
        | .error _ => s.fail
        | .ok x => s.picked recv x := by unfold St.step; rw [hpc]; all_goals rfl
    rw [ee] at hi ⊢
    cases hx : s.db.getUndelivered I s.nym with
    | error e => exact .now (.inl rfl)
    | ok x =>
      rw [hx] at hi
      simp only at hi ⊢
      cases x with
      | none => exact .now (.inr ⟨hi, rfl, rfl, rfl⟩)
      | some x =>
        simp only [St.picked] at hi ⊢
        split
        · rename_i hc
          rw [if_pos hc] at hi
          exact .now (.inr ⟨hi, rfl, rfl, rfl⟩)
        rename_i hc
        rw [if_neg hc] at hi
        split
        · rename_i hv
          rw [if_pos hv] at hi
          refine .step fun r' => ?_
          have hi' := inv_step hi r'
          simp only [St.step] at hi' ⊢
          cases hr : r'.address with
          | none => exact .now (.inl rfl)
          | some a =>
            rw [hr] at hi'
            exact (encrypt_until hi' rfl).bind fun t ht => fin t ht
        · rename_i hv
          rw [if_neg hv] at hi
          exact (encrypt_until hi rfl).bind fun t ht => fin t ht

theorem next_until {s : St} (h : Inv I s) : Until I (fun t => t.pc.idle = true) s.next := by
  generalize ht : s.todo = todo
  induction todo generalizing s with
  | nil =>
    unfold St.next
    rw [ht]
    exact .now rfl
  | cons n todo ih =>
    unfold St.next
    rw [ht]
    have hi : Inv I { s with nym := n, todo := todo, pc := .clear } := ⟨h.wf, h.del, h.made, h.sent, trivial⟩
    refine .step fun r => ?_
    have hi1 := inv_step hi r
    simp only [St.step] at hi1 ⊢
    cases hc : s.db.clearResend I n with
    | error e => exact .now rfl
    | ok d =>
      rw [hc] at hi1
      refine (proc_until (old := true) hi1 rfl).bind fun t ht' => ?_
      rcases ht' with ht' | ⟨u, h1, h2, h3, rfl⟩
      · exact .now ht'
      refine (undelivered_until (recv := []) (inv_leave h1 true) rfl).bind fun t ht' => ?_
      rcases ht' with ht' | ⟨h4, h5, h6, h7⟩
      · exact .now ht'
      refine (proc_until h4 h5).bind fun v hv => ?_
      rcases hv with hv | ⟨w, h8, h9, h10, rfl⟩
      · exact .now hv
      refine ih h8 ?_
      rw [h10, h7]
      exact h3

theorem start_until {s : St} (h : Inv I s) (ns : List Bytes) : Until I (fun t => t.pc.idle = true) (s.start ns) :=
  next_until (s := { s with todo := ns, pc := .done, tried := [] }) ⟨h.wf, h.del, h.made, h.sent, trivial⟩

end Verif.Ctrl

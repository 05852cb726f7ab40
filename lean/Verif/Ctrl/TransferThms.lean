/-
The transfer of fetched messages between the two processes: theorems (C117).
-/
import Verif.Ctrl.TransferMain

namespace Verif.Ctrl.Transfer
open Verif.Sql Verif.Msgdb

variable {J : Job} {s : State}

/-! ### every execution ends -/

/-- How many steps `muteproto` can take from the head of its loop, and how much work it makes. -/
def headW (J : Job) : List Mail → Nat
  | [] => 10 * (lastLine J.fail).length + 3
  | m :: l => 10 * ((idLine m).length + (lenLine m).length + (timeLine m).length) + 4 * m.text.length + 7 + headW J l

def awaitW (J : Job) (m : Mail) (l : List Mail) : Nat :=
  4 * m.text.length + 10 * (lenLine m).length + 10 * (timeLine m).length + 5 + headW J l

def contW (J : Job) : Cont → Nat
  | .await m l => awaitW J m l
  | .time m l => 10 * (timeLine m).length + 2 + headW J l
  | .head l => headW J l
  | .exit => 1

def protoW (J : Job) : Proto → Nat
  | .head l => headW J l
  | .say r k => 10 * r.length + 1 + contW J k
  | .await m l => awaitW J m l
  | .text r m l => 4 * r.length + 10 * (lenLine m).length + 10 * (timeLine m).length + 4 + headW J l
  | .exited _ => 0

def mainW : Main → Nat
  | .id | .len | .time _ => 1
  | .add _ => 2
  | .stop _ _ => 6
  | .wait _ => 4
  | .store _ => 3
  | .quit _ => 3
  | .finish => 2
  | .ret _ => 0

def collW : Coll → Nat
  | .need _ => 1
  | _ => 0

def heldW : Option Bytes → Nat
  | some a => a.length + 1
  | none => 0

def work (J : Job) (s : State) : Nat :=
  protoW J s.proto + 3 * s.out.length + 9 * s.stat.length + heldW s.held + 8 * s.buf.length + mainW s.main + collW s.coll

theorem headW_pos (l : List Mail) : 3 ≤ headW J l := by
  cases l with
  | nil => simp only [headW]; omega
  | cons m l => simp only [headW]; omega

theorem protoW_pos {p : Proto} (h : ∀ b, p ≠ .exited b) : 0 < protoW J p := by
  cases p with
  | head l => have := headW_pos (J := J) l; simp only [protoW]; omega
  | say r k => simp only [protoW]; omega
  | await m l => simp only [protoW, awaitW]; omega
  | text r m l => simp only [protoW]; omega
  | exited b => exact absurd rfl (h b)

theorem step_work {s' : State} (h : Step J s s') : work J s' < work J s := by
  cases h with
  | announce m l hp => simp only [work, hp, protoW, headW, contW, awaitW]; omega
  | last hp => simp only [work, hp, protoW, headW, contW]; omega
  | say a b k hp ha _ =>
    have := List.length_pos_iff.2 ha
    simp only [work, hp, protoW, List.length_append]; omega
  | said k hp =>
    cases k with
    | await m l => simp only [work, hp, protoW, contW, Cont.go, awaitW]; omega
    | time m l => simp only [work, hp, protoW, contW, Cont.go]; omega
    | head l => simp only [work, hp, protoW, contW, Cont.go]; omega
    | exit => simp only [work, hp, protoW, contW, Cont.go]; omega
  | next m l q hp hc => simp only [work, hp, protoW, awaitW]; omega
  | quit m l q hp hc => simp only [work, hp, protoW, awaitW]; omega
  | text a b m l hp ha _ =>
    have := List.length_pos_iff.2 ha
    simp only [work, hp, protoW, List.length_append]; omega
  | texted m l hp => simp only [work, hp, protoW, contW, List.length_nil]; omega
  | kill hp =>
    have := protoW_pos (J := J) hp
    have h0 : protoW J (.exited false) = 0 := rfl
    simp only [work, h0]; omega
  | read a b h1 h2 h3 _ =>
    have := List.length_pos_iff.2 h3
    simp only [work, h1, h2, heldW, List.length_append]; omega
  | collect a h1 _ => simp only [work, h1, heldW]; omega
  | collectRest a n h1 _ _ => simp only [work, h1, heldW]; omega
  | enough n hc hn => simp only [work, hc, collW]; omega
  | fill a b _ _ hst ha =>
    have := List.length_pos_iff.2 ha
    simp only [work, hst, List.length_append]; omega
  | eof b hr h1 h2 h3 =>
    have : 1 ≤ mainW s.main := by
      cases hm : s.main with
      | id => exact Nat.le_refl _
      | len => exact Nat.le_refl _
      | time n => exact Nat.le_refl _
      | _ => rw [hm] at hr; cases hr
    have h0 : mainW (.ret none) = 0 := rfl
    simp only [work, h0]; omega
  | hearId a b hm hb ha =>
    have : mainW (onId J { s with buf := b } (Transfer.hearId a)).main ≤ 3 ∧ (onId J { s with buf := b } (Transfer.hearId a)) =
        { s with buf := b, main := (onId J { s with buf := b } (Transfer.hearId a)).main, cmd := (onId J { s with buf := b } (Transfer.hearId a)).cmd } := by
      unfold onId
      split
      · exact ⟨Nat.le_succ _, rfl⟩
      · exact ⟨Nat.zero_le _, rfl⟩
      · exact ⟨Nat.zero_le _, rfl⟩
      · split
        · exact ⟨Nat.le_refl _, rfl⟩
        · exact ⟨Nat.le_succ _, rfl⟩
    rw [this.2]
    have h3 := this.1
    generalize (onId J { s with buf := b } (Transfer.hearId a)).main = mn at h3 ⊢
    have h0 : mainW Main.id = 1 := rfl
    simp only [work, hb, hm, h0, List.length_append, List.length_cons]; omega
  | hearLen a b hm hb ha =>
    have h0 : mainW Main.len = 1 := rfl
    rcases Transfer.hearLen a with _ | n
    · have h1 : mainW (Main.ret none) = 0 := rfl
      simp only [work, hb, hm, h0, h1, List.length_append, List.length_cons]; omega
    · have h1 : mainW (Main.time n) = 1 := rfl
      simp only [work, hb, hm, h0, h1, List.length_append, List.length_cons]; omega
  | hearTime a b n hm hb ha =>
    have h0 : mainW (Main.time n) = 1 := rfl
    rcases Transfer.hearTime a with _ | t
    · have h1 : mainW (Main.ret none) = 0 := rfl
      simp only [work, hb, hm, h0, h1, List.length_append, List.length_cons]; omega
    · have h1 : mainW (Main.stop n t) = 6 := rfl
      simp only [work, hb, hm, h0, h1, List.length_append, List.length_cons]; omega
  | remove x hm => simp only [work, hm, mainW]; omega
  | add x hm => simp only [work, hm, mainW, collW]; omega
  | store t hm => simp only [work, hm, mainW]; omega
  | dbfail hm =>
    have : 1 ≤ mainW s.main := by
      cases hx : s.main with
      | add x => simp only [mainW]; omega
      | store x => simp only [mainW]; omega
      | quit x => simp only [mainW]; omega
      | _ => rw [hx] at hm; cases hm
    have h0 : mainW (.ret none) = 0 := rfl
    simp only [work, h0]; omega
  | stop n t hm hc => simp only [work, hm, hc, mainW, collW]; omega
  | done t hm hd => simp only [work, hm, hd, mainW, collW]; omega
  | waited b hm hp =>
    have h0 : ∀ r, mainW (.ret r) = 0 := fun _ => rfl
    have h1 : mainW Main.finish = 2 := rfl
    simp only [work, hm, h0, h1]; omega

theorem run_work {n : Nat} (h : Run J n s) : n + work J s ≤ work J (start J) := by
  induction h with
  | start => omega
  | step n s s' _ hs ih => have := step_work hs; omega

/-! ### no execution gets stuck -/

/-- A step that is neither a kill nor a failure of the database. -/
def Calm (J : Job) (s s' : State) : Prop := Step J s s' ∧ s'.faults = s.faults

theorem split_lf {b : Bytes} (h : 10 ∈ b) : ∃ x y, b = x ++ 10 :: y ∧ 10 ∉ x := by
  induction b with
  | nil => cases h
  | cons c t ih =>
    by_cases hc : c = 10
    · subst hc; exact ⟨[], t, rfl, by simp⟩
    · rcases List.mem_cons.1 h with h | h
      · exact absurd h.symm hc
      · obtain ⟨x, y, rfl, h2⟩ := ih h
        exact ⟨c :: x, y, rfl, fun e => (List.mem_cons.1 e).elim (fun e => hc e.symm) h2⟩

theorem onId_faults (h : Heard) : (onId J s h).faults = s.faults := by
  unfold onId
  split
  · rfl
  · rfl
  · rfl
  · split <;> rfl

/-- While a status line is waited for, somebody can go on. -/
theorem progress_read (hcap : 0 < J.cap) {want : Bytes} {l : List Mail} (hr : s.main.reads = true) (hs : Sync J s want l)
    (hawait : s.cmd = [] → ∀ m r, l = m :: r → ∃ x, want = x ++ body J m r ∧ 10 ∈ x) (hq : ∀ m r, s.proto = .await m r → s.cmd = [] ∨ ∃ q, s.cmd = .next :: q)
    (htext : ∀ r m r', s.proto = .text r m r' → s.coll = .select) : ∃ s', Calm J s s' := by
  by_cases h10 : 10 ∈ s.buf
  · obtain ⟨x, y, e1, e2⟩ := split_lf h10
    cases hm : s.main with
    | id => exact ⟨_, .hearId s x y hm e1 e2, onId_faults _⟩
    | len => exact ⟨_, .hearLen s x y hm e1 e2, rfl⟩
    | time n => exact ⟨_, .hearTime s x y n hm e1 e2, rfl⟩
    | _ => rw [hm] at hr; cases hr
  cases hst : s.stat with
  | cons a b => exact ⟨_, .fill s [a] b hr h10 hst (by simp), rfl⟩
  | nil =>
    obtain ⟨f, e1, e2, e3, e4⟩ := hs
    cases hp : s.proto with
    | exited b => exact ⟨_, .eof s b hr h10 hst hp, rfl⟩
    | head l' =>
      cases l' with
      | nil => exact ⟨_, .last s hp, rfl⟩
      | cons m r => exact ⟨_, .announce s m r hp, rfl⟩
    | say r k =>
      cases r with
      | nil => exact ⟨_, .said s k hp, rfl⟩
      | cons a b => exact ⟨_, .say s [a] b k hp (by simp) (by rw [hst]; simp only [List.length_nil, List.length_cons]; omega), rfl⟩
    | await m r =>
      rcases hq m r hp with hc | ⟨q, hc⟩
      · exfalso
        obtain ⟨e5, e6⟩ := e2 (by rw [hp]; rfl)
        rw [hp] at e5 e6
        obtain ⟨x, hx, h10x⟩ := hawait hc m r e6.symm
        rw [hst, e5, hx] at e1
        simp only [Proto.fut, List.nil_append] at e1
        have := List.append_cancel_right e1
        rw [this] at h10
        exact h10 h10x
      · exact ⟨_, .next s m r q hp hc, rfl⟩
    | text r m r' =>
      cases r with
      | nil => exact ⟨_, .texted s m r' hp, rfl⟩
      | cons a b =>
        cases ho : s.out with
        | nil => exact ⟨_, .text s [a] b m r' hp (by simp) (by rw [ho]; simp only [List.length_nil, List.length_cons]; omega), rfl⟩
        | cons c d =>
          cases hh : s.held with
          | none => exact ⟨_, .read s [c] d hh ho (by simp) (by simp), rfl⟩
          | some e => exact ⟨_, .collect s e hh (htext _ _ _ hp), rfl⟩

theorem progress_leave (hl : Leaving J s) (hm : s.main = .finish) : ∃ s', Calm J s s' := by
  rcases hl with ⟨b, h, _⟩ | ⟨hc, m, l, h | h⟩ | ⟨h, _⟩
  · exact ⟨_, .waited s b hm h, rfl⟩
  · exact ⟨_, .quit s m l [] h hc, rfl⟩
  · exact ⟨_, .said s _ h, rfl⟩
  · exact ⟨_, .said s _ h, rfl⟩

theorem progress (hcap : 0 < J.cap) (hi : Inv J s) : (∃ r, s.main = .ret r) ∨ ∃ s', Calm J s s' := by
  unfold Inv at hi
  split at hi
  · next hm =>
    right
    obtain ⟨pre, l, h⟩ := hi
    refine progress_read hcap (by rw [hm]; rfl) h.sync ?_ (fun _ _ _ => .inl h.cmd) ?_
    · intro _ m r e
      subst e
      exact ⟨idLine m, rfl, by simp only [idLine, line]; simp⟩
    · intro r m r' hp
      exact (not_text h.sync (Nat.le_refl _) hp).elim
  · next hm => exact .inr ⟨_, .add s _ hm, rfl⟩
  · next hm =>
    right
    obtain ⟨pre, m, l, b, h, ho, hc⟩ := hi
    refine progress_read hcap (by rw [hm]; rfl) h.flow.sync ?_ ?_ (fun _ _ _ _ => hc)
    · intro hcmd m' r e
      cases b with
      | true => have := h.flow.cmd; rw [hcmd] at this; simp only [if_true] at this; cases this
      | false =>
        simp only [Bool.false_eq_true, if_false] at e
        subst e
        exact ⟨lenLine m ++ (timeLine m ++ idLine m'), by simp only [body, stream, List.append_assoc], by simp only [lenLine, line]; simp⟩
    · intro m' r _
      have := h.flow.cmd
      cases b with
      | true => exact .inr ⟨[], this⟩
      | false => exact .inl this
  · next hm =>
    right
    obtain ⟨pre, m, l, h, _, ho, hc, _⟩ := hi
    refine progress_read hcap (by rw [hm]; rfl) h.flow.sync ?_ (fun _ _ _ => .inl h.flow.cmd) (fun _ _ _ _ => hc)
    intro _ m' r e
    simp only [Bool.false_eq_true, if_false] at e
    subst e
    exact ⟨timeLine m ++ idLine m', by simp only [body, stream, List.append_assoc], by simp only [timeLine, line]; simp⟩
  · next hm =>
    right
    obtain ⟨pre, m, l, h, _, ho, hc, _⟩ := hi
    exact ⟨_, .stop s _ _ hm hc, rfl⟩
  · next hm =>
    right
    obtain ⟨pre, m, l, h, hg, ho, hc, _⟩ := hi
    rcases hc with hc | ⟨hc, _⟩
    · by_cases hle : m.text.length ≤ s.outbuf.length
      · exact ⟨_, .enough s _ hc hle, rfl⟩
      · cases hh : s.held with
        | some a => exact ⟨_, .collectRest s a _ hh hc (by omega), rfl⟩
        | none =>
          cases hout : s.out with
          | cons a b => exact ⟨_, .read s [a] b hh hout (by simp) (by simp), rfl⟩
          | nil =>
            exfalso
            have := congrArg List.length hg
            simp only [got, hh, hout, Option.getD_none, List.append_nil] at this
            omega
    · exact ⟨_, .done s _ hm hc, rfl⟩
  · next hm => exact .inr ⟨_, .store s _ hm, rfl⟩
  · next hm => exact .inr ⟨_, .remove s _ hm, rfl⟩
  · next hm => exact .inr (progress_leave hi.2.2 hm)
  · next hm => exact .inl ⟨_, hm⟩
  · next hm => exact .inl ⟨_, hm⟩

/-! ### the specification -/

/-- The new messages: those listed before the first one that is known. -/
def newMails (J : Job) : List Mail := J.mails.takeWhile fun m => !decide (m.id ∈ J.cache)

/-- What a sequence of database operations puts into the queue of the account: times and texts. -/
def queued (J : Job) (ops : List Op) : List (Int × Bytes) :=
  ops.filterMap fun
    | .addInQueue m c t x => if m = J.my ∧ c = J.c then some (t, x) else none
    | _ => none

/-- The message IDs a sequence of database operations adds to the cache of the account. -/
def cached (J : Job) (ops : List Op) : List Bytes :=
  ops.filterMap fun
    | .addCache m c x => if m = J.my ∧ c = J.c then some x else none
    | _ => none

theorem queued_fetch (J : Job) (l : List Mail) :
    queued J (fetchOps J.my J.c J.cache l) = (l.takeWhile fun m => !decide (m.id ∈ J.cache)).map fun m => (m.time, m.text) := by
  induction l with
  | nil => rfl
  | cons m l ih =>
    unfold fetchOps
    split
    · next h => simp [queued, h]
    · next h =>
      simp only [List.takeWhile_cons, h, decide_false, Bool.not_false, if_true, List.map_cons, ← ih]
      simp [queued]

theorem cached_fetch (J : Job) (l : List Mail) :
    cached J (fetchOps J.my J.c J.cache l) = (l.takeWhile fun m => !decide (m.id ∈ J.cache)).map fun m => m.id := by
  induction l with
  | nil => rfl
  | cons m l ih =>
    unfold fetchOps
    split
    · next h => simp [cached, h]
    · next h =>
      simp only [List.takeWhile_cons, h, decide_false, Bool.not_false, if_true, List.map_cons, ← ih]
      simp [cached]

theorem inv_prefix (hi : Inv J s) : s.ops <+: fetchOps J.my J.c J.cache J.mails := by
  unfold Inv at hi
  split at hi
  · obtain ⟨pre, l, h⟩ := hi
    rw [h.ops]; exact flat_prefix h.mails h.past.fresh
  · obtain ⟨pre, m, l, b, h, _, ho, _⟩ := hi
    rw [ho]; exact flat_prefix h.mails h.past.fresh
  · obtain ⟨pre, m, l, b, h, ho, _⟩ := hi
    rw [ho]; exact flat_add_prefix h.mails h.past.fresh h.unknown
  · obtain ⟨pre, m, l, h, _, ho, _⟩ := hi
    rw [ho]; exact flat_add_prefix h.mails h.past.fresh h.unknown
  · obtain ⟨pre, m, l, h, _, ho, _⟩ := hi
    rw [ho]; exact flat_add_prefix h.mails h.past.fresh h.unknown
  · obtain ⟨pre, m, l, h, _, ho, _⟩ := hi
    rw [ho]; exact flat_add_prefix h.mails h.past.fresh h.unknown
  · obtain ⟨pre, m, l, h, _, ho, _⟩ := hi
    rw [ho]; exact flat_add_prefix h.mails h.past.fresh h.unknown
  · obtain ⟨pre, m, l, h1, h2, _, _, _, h6, _⟩ := hi
    rw [h6]; exact flat_prefix h1 h2
  · rw [hi.1]; exact List.prefix_refl _
  · exact hi.1
  · rcases hi with hi | hi
    · rw [hi.1]; exact List.prefix_refl _
    · exact hi.2.1

theorem nothing_suffix {x : Bytes} (h : Transfer.hearId x = .nothing) : txtNothing <:+ trim x := by
  unfold Transfer.hearId at h
  simp only [] at h
  split at h
  · cases h
  · split at h
    · next h' => exact List.isSuffixOf_iff_suffix.1 h'
    · split at h
      · split at h <;> cases h
      · cases h

/-! ### the theorems -/

/-- C117: in whatever order the two processes and the goroutines take their steps, however reads and
writes are cut into pieces and wherever a run is interrupted, the texts put into the queue are the texts of the
first new messages the server listed, in this order, byte for byte and each with its own time. -/
theorem C117_exact (J : Job) (hj : ∀ m ∈ J.mails, Sent m) (n : Nat) (s : State) (h : Run J n s) :
    queued J s.ops <+: (newMails J).map fun m => (m.time, m.text) := by
  have := (inv_prefix (run_inv hj h)).filterMap (fun
    | .addInQueue m c t x => if m = J.my ∧ c = J.c then some (t, x) else none
    | _ => none)
  rw [show (newMails J).map (fun m => (m.time, m.text)) = queued J (fetchOps J.my J.c J.cache J.mails) from (queued_fetch J J.mails).symm]
  exact this

/-- C117: the message IDs added to the cache are those of the first new messages; at most one of them,
the last one, is of a message that is not (yet) in the queue. -/
theorem C117_cache (J : Job) (hj : ∀ m ∈ J.mails, Sent m) (n : Nat) (s : State) (h : Run J n s) :
    cached J s.ops <+: (newMails J).map (fun m => m.id) ∧ (queued J s.ops).length ≤ (cached J s.ops).length ∧
      (cached J s.ops).length ≤ (queued J s.ops).length + 1 := by
  have hp := inv_prefix (run_inv hj h)
  have h1 := hp.filterMap (fun
    | .addCache m c x => if m = J.my ∧ c = J.c then some x else none
    | _ => none)
  refine ⟨?_, ?_⟩
  · rw [show (newMails J).map (fun m => m.id) = cached J (fetchOps J.my J.c J.cache J.mails) from (cached_fetch J J.mails).symm]
    exact h1
  · generalize s.ops = ops at hp
    generalize J.mails = l at hp
    induction l generalizing ops with
    | nil => rw [List.prefix_nil.1 hp]; exact ⟨Nat.le_refl _, Nat.le_succ _⟩
    | cons m l ih =>
      unfold fetchOps at hp
      split at hp
      · rcases List.prefix_cons_iff.1 hp with rfl | ⟨t, rfl, ht⟩
        · exact ⟨Nat.le_refl _, Nat.le_succ _⟩
        · rw [List.prefix_nil.1 ht]
          exact ⟨Nat.le_refl _, Nat.le_succ _⟩
      · rcases List.prefix_cons_iff.1 hp with rfl | ⟨t, rfl, ht⟩
        · exact ⟨Nat.le_refl _, Nat.le_succ _⟩
        · rcases List.prefix_cons_iff.1 ht with rfl | ⟨t', rfl, ht'⟩
          · simp [cached, queued]
          · obtain ⟨h2, h3⟩ := ih t' ht'
            simp only [cached, queued, List.filterMap_cons, and_self, if_true, List.length_cons] at h2 h3 ⊢
            omega

/-- C117: a run that ends well has put all new messages into the queue and done exactly the
operations of a run of `fetchRun` (C47), where the returned time is used by msg.go:835-840. The only other good end is
one in which the error of `muteproto` ends in "accountdb: nothing found". -/
theorem C117_complete (J : Job) (hj : ∀ m ∈ J.mails, Sent m) (n : Nat) (s : State) (t : Int) (h : Run J n s) (hr : s.main = .ret (some t))
    (hn : ∀ e, J.fail = some e → ¬ txtNothing <:+ trim (txtError ++ e.takeWhile (· != 10))) : queued J s.ops = (newMails J).map (fun m => (m.time, m.text)) ∧ cached J s.ops = (newMails J).map (fun m => m.id) ∧
      s.ops ++ (if 0 < t then [.setAccountLastMsg J.my J.c t] else []) = fetchRun J.my J.c J.cache J.mails := by
  have hi := run_inv hj h
  unfold Inv at hi
  rw [hr] at hi
  rcases hi with ⟨h1, h2⟩ | ⟨_, _, h3⟩
  · refine ⟨by rw [h1]; exact queued_fetch J J.mails, by rw [h1]; exact cached_fetch J J.mails, ?_⟩
    unfold fetchRun
    rw [h1, h2]
    congr 1
    unfold lastTime lastOps
    rcases J.mails with _ | ⟨m, l⟩
    · rfl
    · by_cases hk : m.id ∈ J.cache
      · simp only [if_pos hk]; rfl
      · simp only [if_neg hk]
  · obtain ⟨e, h4, h5⟩ := h3
    exact absurd (nothing_suffix h5) (hn e h4)

/-- C117: no error without a cause: `muteproto` was killed or met an error, the database failed, the server sent a
message without an ID, or one of 2^64 bytes. -/
theorem C117_no_error (J : Job) (hj : ∀ m ∈ J.mails, Sent m) (n : Nat) (s : State) (h : Run J n s) (hr : s.main = .ret none)
    (h0 : s.faults = 0) : J.fail ≠ none ∨ ∃ m ∈ J.mails, m.id = [] ∨ 2 ^ 64 ≤ m.text.length := by
  have hi := run_inv hj h
  unfold Inv at hi
  rw [hr] at hi
  rcases hi.2 with h1 | h1
  · omega
  · exact h1

/-- C117: the processes never wait for each other: as long as the main goroutine has not returned,
one of them can take a step (and not only because `muteproto` could be killed or the database fail). -/
theorem C117_no_deadlock (J : Job) (hj : ∀ m ∈ J.mails, Sent m) (hcap : 0 < J.cap) (n : Nat) (s : State) (h : Run J n s)
    (hr : ∀ r, s.main ≠ .ret r) : ∃ s', Step J s s' ∧ s'.faults = s.faults := by
  rcases progress hcap (run_inv hj h) with ⟨r, e⟩ | h
  · exact absurd e (hr r)
  · exact h

/-- C117: every execution ends: the number of steps is bounded. -/
theorem C117_terminates (J : Job) : ∃ bound, ∀ n s, Run J n s → n ≤ bound :=
  ⟨work J (start J), fun _ _ h => by have := run_work h; omega⟩

/-- C117: if nothing fails, the run goes on to its good end: from every state without a fault there is an
execution without a fault to the end, and all executions that cannot be continued without a fault have ended. -/
theorem C117_finishes (J : Job) (hj : ∀ m ∈ J.mails, Sent m) (hcap : 0 < J.cap) (hf : J.fail = none)
    (hm : ∀ m ∈ J.mails, m.id ≠ [] ∧ m.text.length < 2 ^ 64) (n : Nat) (s : State) (h : Run J n s) (h0 : s.faults = 0) :
    ∃ n' s' t, Run J n' s' ∧ s'.faults = 0 ∧ s'.main = .ret (some t) := by
  generalize hw : work J s = w
  induction w using Nat.strongRecOn generalizing n s with
  | ind w ih =>
    rcases progress hcap (run_inv hj h) with ⟨r, e⟩ | ⟨s', h1, h2⟩
    · cases r with
      | none =>
        rcases C117_no_error J hj n s h e h0 with h' | ⟨m, h1, h2 | h2⟩
        · exact absurd hf h'
        · exact absurd h2 (hm m h1).1
        · exact absurd (hm m h1).2 (by omega)
      | some t => exact ⟨n, s, t, h, h0, e⟩
    · exact ih (work J s') (by rw [← hw]; exact step_work h1) (n + 1) s' (.step n s s' h h1) (by rw [h2, h0]) rfl

/-! ### examples -/

/-- Two new messages and a known one; the pipes hold three bytes. -/
def exJob : Job :=
  { my := [109], c := [99], cache := [Base64.encode [3]],
    mails := [⟨Base64.encode [1], 1500000002, Base64.encode [65, 66, 67, 68, 69]⟩, ⟨Base64.encode [2], -7, Base64.encode []⟩,
      ⟨Base64.encode [3], 1500000000, Base64.encode [72]⟩],
    fail := none, cap := 3 }

theorem exJob_sent : ∀ m ∈ exJob.mails, Sent m := by
  intro m hm
  simp only [exJob, List.mem_cons, List.not_mem_nil, or_false] at hm
  rcases hm with rfl | rfl | rfl
  · exact ⟨⟨_, rfl⟩, ⟨_, rfl⟩, by decide, by decide⟩
  · exact ⟨⟨_, rfl⟩, ⟨_, rfl⟩, by decide, by decide⟩
  · exact ⟨⟨_, rfl⟩, ⟨_, rfl⟩, by decide, by decide⟩

theorem exJob_ok : ∀ m ∈ exJob.mails, m.id ≠ [] ∧ m.text.length < 2 ^ 64 := by decide +kernel

/-- There is a run with two messages that ends well, and it stores both texts. -/
example : ∃ n s t, Run exJob n s ∧ s.main = .ret (some t) ∧
    queued exJob s.ops = [(1500000002, Base64.encode [65, 66, 67, 68, 69]), (-7, [])] ∧ cached exJob s.ops = [Base64.encode [1], Base64.encode [2]] := by
  obtain ⟨n, s, t, h, _, e⟩ := C117_finishes exJob exJob_sent (by decide) rfl exJob_ok 0 _ .start rfl
  obtain ⟨h1, h2, _⟩ := C117_complete exJob exJob_sent n s t h e (fun e h => by cases h)
  exact ⟨n, s, t, h, e, h1.trans (by decide +kernel), h2.trans (by decide +kernel)⟩

/-- There are runs that end in an error: `muteproto` is killed at once. -/
example : ∃ n s, Run exJob n s ∧ s.main = .ret none ∧ s.faults = 1 :=
  ⟨2, _, .step 1 _ _ (.step 0 _ _ .start (.kill _ fun b hb => by cases hb)) (.eof _ false rfl (by simp [start]) rfl rfl), rfl, rfl⟩

/-- An error of `muteproto` that looks like an account without messages is taken for a good end, with the time 0. -/
example : txtNothing <:+ trim (txtError ++ txtNothing) := by decide +kernel

/-- The same with pipes that hold a line, as real ones do. -/
def exWide : Job := { exJob with cap := 4096 }

theorem exWide_sent : ∀ m ∈ exWide.mails, Sent m := exJob_sent

/-- The two jobs after an interrupted run: the cache has got one more message ID. -/
def exAgain (ops : List Op) : Job := { exWide with cache := exWide.cache ++ cached exWide ops }

/-- C117 does not include that an interrupted transfer can be repeated: when `muteproto` is killed after it was asked for
the text of the newest message, this message is cached but not in the queue, and no later run for the same list puts
this or any older message into the queue (msg.go:578 before 632). -/
theorem C117_repeat_violated : ∃ n s, Run exWide n s ∧ s.main = .ret none ∧ newMails exWide ≠ [] ∧ queued exWide s.ops = [] ∧
    ∀ n' s', Run (exAgain s.ops) n' s' → queued (exAgain s.ops) s'.ops = [] := by
  have h0 : Run exWide 0 (start exWide) := .start
  have h1 := Run.step 0 _ _ h0 (.announce (start exWide) _ _ rfl)
  have h2 := Run.step 1 _ _ h1 (.say _ (idLine ⟨Base64.encode [1], 1500000002, Base64.encode [65, 66, 67, 68, 69]⟩) [] _ (by simp only [List.append_nil]; rfl) (by decide +kernel) (by decide +kernel))
  have h3 := Run.step 2 _ _ h2 (.fill _ (idLine ⟨Base64.encode [1], 1500000002, Base64.encode [65, 66, 67, 68, 69]⟩) [] rfl (by simp [start]) (by simp only [List.append_nil]; rfl) (by decide +kernel))
  have h4 := Run.step 3 _ _ h3 (.hearId _ (txtId ++ 9 :: Base64.encode [1]) [] rfl (by decide +kernel) (by decide +kernel))
  have h5 := Run.step 4 _ _ h4 (.add _ (Base64.encode [1]) (by decide +kernel))
  have h6 := Run.step 5 _ _ h5 (.kill _ fun b hb => by cases hb)
  have h7 := Run.step 6 _ _ h6 (.eof _ false rfl (by decide +kernel) rfl rfl)
  refine ⟨7, _, h7, rfl, by decide +kernel, by decide +kernel, fun n' s' hr => ?_⟩
  have hn : newMails (exAgain [.addCache [109] [99] (Base64.encode [1])]) = [] := by decide +kernel
  have hr' : Run (exAgain [.addCache [109] [99] (Base64.encode [1])]) n' s' := hr
  have := C117_exact (exAgain [.addCache [109] [99] (Base64.encode [1])]) exWide_sent n' s' hr'
  rw [hn] at this
  exact List.prefix_nil.1 this

end Verif.Ctrl.Transfer

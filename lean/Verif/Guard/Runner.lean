/-
The background runner of the wallet client (serviceguard/client/runner.go): the lock and the
stop channel as a transition system, and the fill targets as a function. Properties C83 and C89.
-/
import Verif.Go

namespace Verif.Guard.Runner

/-! ### threads -/

/-- Where a goroutine is. The number is the client it belongs to: `runnerLock`
(clientlib.go:36-37) is shared by all clients, the channel and the flag are not. -/
inductive Pc
  | start (c : Nat)     -- runner.go:29, before Lock
  | check (c : Nat)     -- runner.go:30, holding the lock
  | head (c : Nat)      -- runner.go:37
  | recv (c : Nat)      -- runner.go:38
  | work (c : Nat)      -- runner.go:41-59
  | meetWait (c : Nat)  -- runner.go:75, before Lock
  | meet (c : Nat)      -- runner.go:77-107, holding the lock
  | exited              -- after runner.go:39
  | returned            -- after runner.go:31
  | sending (c : Nat)   -- runner.go:24, StopRunner
  | sent                -- StopRunner returned
  | setWait (c : Nat)   -- clientlib.go:223, before Lock
  | setHold (c : Nat)   -- clientlib.go:224-225, holding the lock
  | setDone             -- SetTarget returned
  deriving DecidableEq, Repr

/-- The lock, `runnerRunning` and the number of values buffered in `stopChan` of every client, and
the goroutines. -/
structure St where
  locked : Bool
  running : Nat → Bool
  buf : Nat → Nat
  threads : List Pc

/-- The capacity of `make(chan bool)` (clientlib.go:79). -/
def chanCap : Nat := 0

/-- Calls of `Runner` (runner.go:18-20), `StopRunner` (runner.go:23-25) and `SetTarget`
(clientlib.go:222-226). -/
inductive Call
  | runner (c : Nat)
  | stop (c : Nat)
  | setTarget (c : Nat)
  deriving DecidableEq, Repr

def Call.pc : Call → Pc
  | .runner c => .start c
  | .stop c => .sending c
  | .setTarget c => .setWait c

/-- A new call, one step of a goroutine, or a send that meets a waiting receiver. -/
inductive Act
  | call (k : Call)
  | run (i : Nat)
  | meet (i j : Nat)
  deriving DecidableEq, Repr

def set (f : Nat → α) (c : Nat) (v : α) : Nat → α := fun d => if d = c then v else f d

def St.put (s : St) (i : Nat) (p : Pc) : St := { s with threads := s.threads.set i p }

/-- One step of goroutine `i`, which is at `p`; none if it has to wait or has ended.
`runner` (runner.go:27-69), `meetTarget` (runner.go:74-107, its result is in `meetTarget` below),
`StopRunner` and `SetTarget`. `len(c.stopChan)` is the number of buffered values. Simplified: the
work between the channel and the lock is one step; that it ends is assumed. -/
def St.thread (s : St) (i : Nat) : Pc → Option St
  | .start c => if s.locked then none else some { s.put i (.check c) with locked := true }
  | .check c =>
    if s.running c then some (s.put i .returned)
    else some { s.put i (.head c) with running := set s.running c true, locked := false }
  | .head c => some (s.put i (if s.buf c > 0 then .recv c else .work c))
  | .recv c => if s.buf c > 0 then some { s.put i .exited with buf := set s.buf c (s.buf c - 1) } else none
  | .work c => some (s.put i (.meetWait c))
  | .meetWait c => if s.locked then none else some { s.put i (.meet c) with locked := true }
  | .meet c => some { s.put i (.head c) with locked := false }
  | .exited => none
  | .returned => none
  | .sending c => if s.buf c < chanCap then some { s.put i .sent with buf := set s.buf c (s.buf c + 1) } else none
  | .sent => none
  | .setWait c => if s.locked then none else some { s.put i (.setHold c) with locked := true }
  | .setHold _ => some { s.put i .setDone with locked := false }
  | .setDone => none

/-- A send on a channel without free buffer completes when a receiver waits. -/
def St.meets (s : St) (i j : Nat) : Option St :=
  match s.threads[i]?, s.threads[j]? with
  | some (.sending c), some (.recv d) => if c = d ∧ s.buf c = 0 then some ((s.put i .sent).put j .exited) else none
  | _, _ => none

def St.step (s : St) : Act → Option St
  | .call k => some { s with threads := s.threads ++ [k.pc] }
  | .run i => s.threads[i]?.bind (s.thread i)
  | .meet i j => s.meets i j

/-- A schedule. -/
def St.exec (s : St) : List Act → Option St
  | [] => some s
  | a :: as => (s.step a).bind fun s => s.exec as

def St.init : St := ⟨false, fun _ => false, fun _ => 0, []⟩

/-! ### targets -/

/-- `Target` (clientlib.go:43-48). -/
structure Target where
  usage : Bytes
  low : Int
  high : Int
  balance : Int
  deriving DecidableEq, Repr

abbrev Targets := List (Bytes × Target)

/-- What one call did: the token requests it sent and whether it acted. -/
structure Met where
  targets : Targets
  loads : List (Bytes × Bytes)
  acted : Bool
  deriving DecidableEq, Repr

/-- `meetTarget` (runner.go:74-107), for the order in which the map happens to be iterated.
`balance usage owner` is `GetBalance`, `load usage owner` whether `WalletToken` succeeds. -/
def meetTarget (balance : Bytes → Bytes → Int) (load : Bytes → Bytes → Bool) : Targets → Met
  | [] => ⟨[], [], false⟩
  | (owner, t) :: rest =>
    let b := balance t.usage owner
    if b ≥ t.low ∧ t.balance ≤ 0 then
      let m := meetTarget balance load rest
      { m with targets := (owner, t) :: m.targets }
    else if b ≥ t.high then
      let m := meetTarget balance load rest
      { m with targets := (owner, { t with balance := 0 }) :: m.targets }
    else
      let d := if load t.usage owner then t.high - b - 1 else t.high - b
      ⟨(owner, { t with balance := d }) :: rest, [(t.usage, owner)], true⟩

/-! ### C83 -/

/-- The goroutine holds the lock. -/
def Pc.holds : Pc → Bool
  | .check _ | .meet _ | .setHold _ => true
  | _ => false

/-- The goroutine is in the loop of the runner of client `c`. -/
def Pc.loops (c : Nat) : Pc → Bool
  | .head d | .recv d | .work d | .meetWait d | .meet d => d == c
  | _ => false

/-- Every state that some schedule leads to. -/
def Reachable (s : St) : Prop := ∃ as, St.init.exec as = some s

theorem exec_append (s : St) (as bs : List Act) : s.exec (as ++ bs) = (s.exec as).bind fun s => s.exec bs := by
  induction as generalizing s with
  | nil => rfl
  | cons a as ih =>
    simp only [List.cons_append, St.exec]
    cases s.step a with
    | none => rfl
    | some s => exact ih s

/-- Induction over schedules. -/
theorem exec_inv {P : St → Prop} (hstep : ∀ s a s', P s → s.step a = some s' → P s') (s : St) (h : P s) (as : List Act) (s' : St) (he : s.exec as = some s') : P s' := by
  induction as generalizing s with
  | nil => cases he; exact h
  | cons a as ih =>
    simp only [St.exec] at he
    cases hs : s.step a with
    | none => rw [hs] at he; cases he
    | some s1 =>
      rw [hs] at he
      exact ih s1 (hstep s a s1 h hs) he

/-- Nobody ever receives: channels are empty, and no goroutine is at the receive or after it. -/
structure Quiet (s : St) : Prop where
  buf : ∀ c, s.buf c = 0
  none : ∀ p ∈ s.threads, p ≠ .exited ∧ p ≠ .sent ∧ ∀ c, p ≠ .recv c

theorem quiet_put {s : St} (h : Quiet s) (i : Nat) (p : Pc) (hp : p ≠ .exited ∧ p ≠ .sent ∧ ∀ c, p ≠ .recv c) :
    ∀ q ∈ (s.put i p).threads, q ≠ .exited ∧ q ≠ .sent ∧ ∀ c, q ≠ .recv c := by
  intro q hq
  rcases List.mem_or_eq_of_mem_set hq with h1 | rfl
  · exact h.none q h1
  · exact hp

theorem quiet_step (s : St) (a : Act) (s' : St) (h : Quiet s) (he : s.step a = some s') : Quiet s' := by
  cases a with
  | call k =>
    cases he
    refine ⟨h.buf, fun p hp => ?_⟩
    rcases List.mem_append.mp hp with h1 | h1
    · exact h.none p h1
    · rw [List.mem_singleton.mp h1]
      cases k <;> simp [Call.pc]
  | run i =>
    obtain ⟨p, hp, he⟩ := Option.bind_eq_some_iff.mp he
    have hm := List.mem_of_getElem? hp
    have hn := h.none p hm
    have hb := h.buf
    cases p with
    | start c =>
      simp only [St.thread] at he
      split at he <;> cases he
      exact ⟨h.buf, quiet_put h i _ (by simp)⟩
    | check c =>
      simp only [St.thread] at he
      split at he <;> cases he
      · exact ⟨h.buf, quiet_put h i _ (by simp)⟩
      · exact ⟨h.buf, quiet_put h i _ (by simp)⟩
    | head c =>
      simp only [St.thread, hb c, Nat.lt_irrefl, gt_iff_lt, if_false] at he
      cases he
      exact ⟨h.buf, quiet_put h i _ (by simp)⟩
    | recv c => exact absurd rfl (hn.2.2 c)
    | work c => cases he; exact ⟨h.buf, quiet_put h i _ (by simp)⟩
    | meetWait c =>
      simp only [St.thread] at he
      split at he <;> cases he
      exact ⟨h.buf, quiet_put h i _ (by simp)⟩
    | meet c => cases he; exact ⟨h.buf, quiet_put h i _ (by simp)⟩
    | exited => cases he
    | returned => cases he
    | sending c =>
      simp only [St.thread, chanCap, Nat.not_lt_zero, if_false] at he
      cases he
    | sent => cases he
    | setWait c =>
      simp only [St.thread] at he
      split at he <;> cases he
      exact ⟨h.buf, quiet_put h i _ (by simp)⟩
    | setHold c => cases he; exact ⟨h.buf, quiet_put h i _ (by simp)⟩
    | setDone => cases he
  | meet i j =>
    simp only [St.step, St.meets] at he
    split at he
    · rename_i c d _ hj
      exact absurd rfl ((h.none _ (List.mem_of_getElem? hj)).2.2 d)
    · cases he

theorem quiet_init : Quiet .init := ⟨fun _ => rfl, nofun⟩

/-- C83, violation: in no schedule does a call of `StopRunner` return, and in none does a runner
end: the channel has no buffer, so its length is never positive, and nobody receives from it. -/
theorem C83_never_stops (s : St) (h : Reachable s) (i : Nat) : s.threads[i]? ≠ some .sent ∧ s.threads[i]? ≠ some .exited := by
  obtain ⟨as, h⟩ := h
  have hq := exec_inv quiet_step .init quiet_init as s h
  exact ⟨fun h => (hq.none _ (List.mem_of_getElem? h)).2.1 rfl, fun h => (hq.none _ (List.mem_of_getElem? h)).1 rfl⟩

theorem getElem?_put (s : St) (i : Nat) (p : Pc) (j : Nat) : (s.put i p).threads[j]? = if i = j then (if i < s.threads.length then some p else none) else s.threads[j]? := by
  simp only [St.put, List.getElem?_set]

/-- What a step does to the threads: the new thread of a call, or one thread changed, or two that
met. -/
theorem step_other {s s' : St} {i : Nat} (he : s.step (.run i) = some s') (j : Nat) (hj : j ≠ i) : s'.threads[j]? = s.threads[j]? := by
  obtain ⟨p, hp, he⟩ := Option.bind_eq_some_iff.mp he
  have key : ∀ q, (s.put i q).threads[j]? = s.threads[j]? := fun q => by rw [getElem?_put, if_neg (fun h => hj h.symm)]
  cases p <;> simp only [St.thread] at he <;> (try split at he) <;> (first | cases he; done | skip) <;> cases he <;> exact key _

theorem step_length {s s' : St} {a : Act} (he : s.step a = some s') : s.threads.length ≤ s'.threads.length := by
  cases a with
  | call k => cases he; simp
  | run i =>
    obtain ⟨p, hp, he⟩ := Option.bind_eq_some_iff.mp he
    have key : ∀ q, (s.put i q).threads.length = s.threads.length := fun q => by simp [St.put]
    cases p <;> simp only [St.thread] at he <;> (try split at he) <;> (first | cases he; done | skip) <;> cases he <;> exact Nat.le_of_eq (key _).symm
  | meet i j =>
    simp only [St.step, St.meets] at he
    split at he
    · split at he <;> cases he
      simp [St.put]
    · cases he

/-- The lock is held and nobody that could release it is left. -/
structure Stuck (s : St) : Prop where
  locked : s.locked = true
  none : ∀ p ∈ s.threads, p.holds = false

theorem stuck_step (s : St) (a : Act) (s' : St) (h : Stuck s) (he : s.step a = some s') : Stuck s' := by
  have hput : ∀ (s : St) i p, p.holds = false → (∀ q ∈ s.threads, q.holds = false) → ∀ q ∈ (s.put i p).threads, q.holds = false := by
    intro s i p hp hs q hq
    rcases List.mem_or_eq_of_mem_set hq with h1 | rfl
    · exact hs q h1
    · exact hp
  cases a with
  | call k =>
    cases he
    refine ⟨h.locked, fun p hp => ?_⟩
    rcases List.mem_append.mp hp with h1 | h1
    · exact h.none p h1
    · rw [List.mem_singleton.mp h1]
      cases k <;> rfl
  | run i =>
    obtain ⟨p, hp, he⟩ := Option.bind_eq_some_iff.mp he
    have hh := h.none p (List.mem_of_getElem? hp)
    cases p with
    | start c => simp [St.thread, h.locked] at he
    | check c => cases hh
    | head c => cases he; exact ⟨h.locked, hput s i _ (by split <;> rfl) h.none⟩
    | recv c =>
      simp only [St.thread] at he
      split at he <;> cases he
      exact ⟨h.locked, hput s i _ rfl h.none⟩
    | work c => cases he; exact ⟨h.locked, hput s i _ rfl h.none⟩
    | meetWait c => simp [St.thread, h.locked] at he
    | meet c => cases hh
    | exited => cases he
    | returned => cases he
    | sending c =>
      simp only [St.thread] at he
      split at he <;> cases he
      exact ⟨h.locked, hput s i _ rfl h.none⟩
    | sent => cases he
    | setWait c => simp [St.thread, h.locked] at he
    | setHold c => cases hh
    | setDone => cases he
  | meet i j =>
    simp only [St.step, St.meets] at he
    split at he
    · split at he <;> cases he
      exact ⟨h.locked, hput _ j _ rfl (hput s i _ rfl h.none)⟩
    · cases he

/-- Threads that hold the lock. -/
def St.holders (s : St) : Nat := s.threads.countP Pc.holds

/-- The number of threads that returned with the lock. -/
def St.lost (s : St) : Nat := s.threads.countP (· == Pc.returned)

theorem countP_set (f : Pc → Bool) (l : List Pc) (i : Nat) (p q : Pc) (h : l[i]? = some p) :
    (l.set i q).countP f + (if f p then 1 else 0) = l.countP f + (if f q then 1 else 0) := by
  induction l generalizing i with
  | nil => simp at h
  | cons a l ih =>
    cases i with
    | zero =>
      simp only [List.getElem?_cons_zero, Option.some.injEq] at h
      subst h
      simp only [List.set_cons_zero, List.countP_cons]
      omega
    | succ i =>
      simp only [List.getElem?_cons_succ] at h
      have := ih i h
      simp only [List.set_cons_succ, List.countP_cons]
      omega

/-- The lock is held by exactly one thread, or was lost by exactly one, or is free. -/
def Excl (s : St) : Prop := s.holders + s.lost = if s.locked then 1 else 0

theorem excl_put {s : St} {i : Nat} {p : Pc} (hp : s.threads[i]? = some p) (q : Pc) :
    (s.put i q).holders + (s.put i q).lost + (if p.holds then 1 else 0) + (if p == .returned then 1 else 0)
      = s.holders + s.lost + (if q.holds then 1 else 0) + (if q == .returned then 1 else 0) := by
  have h1 := countP_set Pc.holds s.threads i p q hp
  have h2 := countP_set (· == Pc.returned) s.threads i p q hp
  unfold St.holders St.lost St.put
  simp only at *
  omega

theorem excl_step (s : St) (a : Act) (s' : St) (h : Excl s) (he : s.step a = some s') : Excl s' := by
  unfold Excl at *
  cases a with
  | call k =>
    cases he
    have : (s.threads ++ [k.pc]).countP Pc.holds + (s.threads ++ [k.pc]).countP (· == Pc.returned) = s.holders + s.lost := by
      simp only [List.countP_append, St.holders, St.lost]
      cases k <;> simp [Call.pc, Pc.holds]
    exact this.trans h
  | run i =>
    obtain ⟨p, hp, he⟩ := Option.bind_eq_some_iff.mp he
    have key := fun q => excl_put hp q
    cases p with
    | start c =>
      simp only [St.thread] at he
      split at he <;> cases he
      rename_i hl
      have := key (.check c)
      rw [if_neg hl] at h
      simp only [Pc.holds, reduceCtorEq, beq_iff_eq, if_true, if_false, Bool.false_eq_true] at this
      show (s.put i _).holders + (s.put i _).lost = 1
      omega
    | check c =>
      simp only [St.thread] at he
      split at he <;> cases he
      · have := key .returned
        simp only [Pc.holds, reduceCtorEq, beq_iff_eq, if_true, if_false, Bool.false_eq_true] at this
        show (s.put i _).holders + (s.put i _).lost = if s.locked then 1 else 0
        omega
      · have := key (.head c)
        simp only [Pc.holds, reduceCtorEq, beq_iff_eq, if_true, if_false, Bool.false_eq_true] at this
        show (s.put i _).holders + (s.put i _).lost = 0
        split at h <;> omega
    | head c =>
      simp only [St.thread] at he
      split at he
      · cases he
        have := key (.recv c)
        simp only [Pc.holds, reduceCtorEq, beq_iff_eq, if_false, Bool.false_eq_true] at this
        show (s.put i _).holders + (s.put i _).lost = if s.locked then 1 else 0
        omega
      · cases he
        have := key (.work c)
        simp only [Pc.holds, reduceCtorEq, beq_iff_eq, if_false, Bool.false_eq_true] at this
        show (s.put i _).holders + (s.put i _).lost = if s.locked then 1 else 0
        omega
    | recv c =>
      simp only [St.thread] at he
      split at he <;> cases he
      have := key .exited
      simp only [Pc.holds, reduceCtorEq, beq_iff_eq, if_false, Bool.false_eq_true] at this
      show (s.put i _).holders + (s.put i _).lost = if s.locked then 1 else 0
      omega
    | work c =>
      cases he
      have := key (.meetWait c)
      simp only [Pc.holds, reduceCtorEq, beq_iff_eq, if_false, Bool.false_eq_true] at this
      show (s.put i _).holders + (s.put i _).lost = if s.locked then 1 else 0
      omega
    | meetWait c =>
      simp only [St.thread] at he
      split at he <;> cases he
      rename_i hl
      have := key (.meet c)
      rw [if_neg hl] at h
      simp only [Pc.holds, reduceCtorEq, beq_iff_eq, if_true, if_false, Bool.false_eq_true] at this
      show (s.put i _).holders + (s.put i _).lost = 1
      omega
    | meet c =>
      cases he
      have := key (.head c)
      simp only [Pc.holds, reduceCtorEq, beq_iff_eq, if_true, if_false, Bool.false_eq_true] at this
      show (s.put i _).holders + (s.put i _).lost = 0
      split at h <;> omega
    | exited => cases he
    | returned => cases he
    | sending c =>
      simp only [St.thread] at he
      split at he <;> cases he
      have := key .sent
      simp only [Pc.holds, reduceCtorEq, beq_iff_eq, if_false, Bool.false_eq_true] at this
      show (s.put i _).holders + (s.put i _).lost = if s.locked then 1 else 0
      omega
    | sent => cases he
    | setWait c =>
      simp only [St.thread] at he
      split at he <;> cases he
      rename_i hl
      have := key (.setHold c)
      rw [if_neg hl] at h
      simp only [Pc.holds, reduceCtorEq, beq_iff_eq, if_true, if_false, Bool.false_eq_true] at this
      show (s.put i _).holders + (s.put i _).lost = 1
      omega
    | setHold c =>
      cases he
      have := key .setDone
      simp only [Pc.holds, reduceCtorEq, beq_iff_eq, if_true, if_false, Bool.false_eq_true] at this
      show (s.put i _).holders + (s.put i _).lost = 0
      split at h <;> omega
    | setDone => cases he
  | meet i j =>
    simp only [St.step, St.meets] at he
    split at he
    · rename_i c d hi hj
      split at he <;> cases he
      have hne : i ≠ j := by rintro rfl; rw [hi] at hj; cases hj
      have h1 := excl_put hi .sent
      have hj' : (s.put i .sent).threads[j]? = some (.recv d) := by rw [getElem?_put, if_neg hne]; exact hj
      have h2 := excl_put hj' .exited
      simp only [Pc.holds, reduceCtorEq, beq_iff_eq, if_false, Bool.false_eq_true] at h1 h2
      show ((s.put i .sent).put j .exited).holders + _ = if s.locked then 1 else 0
      omega
    · cases he

theorem excl_reachable {s : St} (h : Reachable s) : Excl s := by
  obtain ⟨as, h⟩ := h
  exact exec_inv excl_step .init rfl as s h

/-- C83, partial: at most one goroutine works on the targets at a time. -/
theorem C83_exclusive_partial (s : St) (h : Reachable s) (i j : Nat) (p q : Pc) (hi : s.threads[i]? = some p) (hj : s.threads[j]? = some q)
    (hp : p.holds = true) (hq : q.holds = true) : i = j := by
  have he : s.holders ≤ 1 := by
    have := excl_reachable h
    unfold Excl at this
    split at this <;> omega
  have key : ∀ (l : List Pc) (i j : Nat), l.countP Pc.holds ≤ 1 → l[i]? = some p → l[j]? = some q → i = j := by
    intro l
    induction l with
    | nil => intro i j _ h; simp at h
    | cons a l ih =>
      intro i j hc hi hj
      have hz : ∀ (k : Nat) (r : Pc), l[k]? = some r → r.holds = true → 0 < l.countP Pc.holds := fun k r hk hr =>
        List.countP_pos_iff.mpr ⟨r, List.mem_of_getElem? hk, hr⟩
      rw [List.countP_cons] at hc
      cases i with
      | zero =>
        cases j with
        | zero => rfl
        | succ j =>
          simp only [List.getElem?_cons_zero, Option.some.injEq] at hi
          simp only [List.getElem?_cons_succ] at hj
          have := hz j q hj hq
          rw [hi, hp] at hc
          simp only [if_true] at hc
          omega
      | succ i =>
        cases j with
        | zero =>
          simp only [List.getElem?_cons_zero, Option.some.injEq] at hj
          simp only [List.getElem?_cons_succ] at hi
          have := hz i p hi hp
          rw [hj, hq] at hc
          simp only [if_true] at hc
          omega
        | succ j =>
          simp only [List.getElem?_cons_succ] at hi hj
          rw [ih i j (by split at hc <;> omega) hi hj]
  exact key s.threads i j he hi hj

/-- C83, violation: once a second call of `Runner` has returned, the lock is never released: a
`SetTarget` of any client that waits, or is called later, waits in every continuation. -/
theorem C83_second_start (s : St) (h : Reachable s) (k : Nat) (hk : s.threads[k]? = some .returned) (as : List Act) (s' : St) (he : s.exec as = some s') :
    s'.locked = true ∧ ∀ i : Nat, s.threads[i]? ≠ some Pc.setDone → s'.threads[i]? ≠ some Pc.setDone := by
  have hx := excl_reachable h
  have hl : 0 < s.lost := List.countP_pos_iff.mpr ⟨_, List.mem_of_getElem? hk, rfl⟩
  have hs : Stuck s := by
    unfold Excl at hx
    have h0 : s.holders = 0 := by split at hx <;> omega
    refine ⟨?_, fun p hp => ?_⟩
    · cases hlk : s.locked with
      | true => rfl
      | false => rw [hlk] at hx; simp at hx; omega
    · have := List.countP_eq_zero.mp h0 p hp
      simpa using this
  refine ⟨(exec_inv stuck_step s hs as s' he).locked, ?_⟩
  intro i hi
  have := exec_inv (P := fun s => Stuck s ∧ s.threads[i]? ≠ some .setDone) ?_ s ⟨hs, hi⟩ as s' he
  · exact this.2
  · intro s a s' ⟨h1, h2⟩ he
    refine ⟨stuck_step s a s' h1 he, ?_⟩
    cases a with
    | call k =>
      cases he
      intro h3
      rw [List.getElem?_append] at h3
      split at h3
      · exact h2 h3
      · rw [List.getElem?_singleton] at h3
        split at h3
        · cases k <;> cases h3
        · cases h3
    | run j =>
      by_cases hij : i = j
      · subst hij
        obtain ⟨p, hp, he⟩ := Option.bind_eq_some_iff.mp he
        have hh := h1.none p (List.mem_of_getElem? hp)
        have hlt := (List.getElem?_eq_some_iff.mp hp).1
        have key : ∀ q, q ≠ .setDone → (s.put i q).threads[i]? ≠ some .setDone := by
          intro q hq h
          rw [getElem?_put, if_pos rfl, if_pos hlt] at h
          cases h
          exact hq rfl
        cases p with
        | setHold c => cases hh
        | setDone => exact absurd hp h2
        | head c =>
          cases he
          exact key _ (by split <;> simp)
        | _ =>
          simp only [St.thread] at he <;> (try split at he) <;> (first | cases he; done | skip) <;> cases he <;> exact key _ (by simp)
      · rw [step_other he i hij]
        exact h2
    | meet j k =>
      simp only [St.step, St.meets] at he
      split at he
      · split at he <;> cases he
        intro h
        have : Pc.setDone ∈ ((s.put j .sent).put k .exited).threads := List.mem_of_getElem? h
        rw [getElem?_put] at h
        split at h
        · split at h <;> cases h
        · rw [getElem?_put] at h
          split at h
          · split at h <;> cases h
          · exact h2 h
      · cases he

/-- Non-vacuity of `C83_second_start`, which is two calls of `Runner` on the same client: the
second one returns with the lock; a `SetTarget` waits. -/
example : ∃ s, St.init.exec [.call (.runner 0), .call (.runner 0), .call (.setTarget 1), .run 0, .run 0, .run 1, .run 1] = some s ∧
    s.threads[1]? = some .returned ∧ s.threads[2]? = some (.setWait 1) := ⟨_, rfl, rfl, rfl⟩

/-- Client `c` has been started. -/
def starts (c : Nat) (as : List Act) : Nat := as.count (.call (.runner c))

/-- Runners of `c` that have not yet passed the check. -/
def Pc.early (c : Nat) : Pc → Bool
  | .start d | .check d => d == c
  | _ => false

/-- If every runner is started at most once, then a runner that has not passed its check is not
yet running, and none has returned. -/
structure Once (as : List Act) (s : St) : Prop where
  early : ∀ c, s.threads.countP (Pc.early c) + (if s.running c then 1 else 0) ≤ starts c as
  lost : (∀ c, starts c as ≤ 1) → Pc.returned ∉ s.threads

theorem once_put {s : St} {i : Nat} {p q : Pc} {as : List Act} (h : Once as s) (hp : s.threads[i]? = some p) (hq : ∀ c, q.early c = true → p.early c = true) (hr : q ≠ .returned) :
    Once as (s.put i q) := by
  constructor
  · intro c
    have h1 := countP_set (Pc.early c) s.threads i p q hp
    have h2 := h.early c
    have h3 : (if q.early c then 1 else 0) ≤ (if p.early c then 1 else (0 : Nat)) := by
      have := hq c
      cases hqc : q.early c with
      | false => simp
      | true => simp [this hqc]
    show (s.threads.set i q).countP _ + (if s.running c then 1 else 0) ≤ _
    omega
  · intro hs hm
    rcases List.mem_or_eq_of_mem_set hm with h1 | h1
    · exact h.lost hs h1
    · exact hr h1.symm

theorem once_lock {s : St} {as : List Act} (h : Once as s) (l : Bool) : Once as { s with locked := l } := ⟨h.early, h.lost⟩
theorem once_buf {s : St} {as : List Act} (h : Once as s) (b : Nat → Nat) : Once as { s with buf := b } := ⟨h.early, h.lost⟩

theorem once_act {s : St} {as : List Act} (h : Once as s) (a : Act) : Once (as ++ [a]) s := by
  have : ∀ c, starts c as ≤ starts c (as ++ [a]) := by intro c; unfold starts; rw [List.count_append]; omega
  exact ⟨fun c => Nat.le_trans (h.early c) (this c), fun hs => h.lost fun c => Nat.le_trans (this c) (hs c)⟩

theorem once_step (as : List Act) (s : St) (a : Act) (s' : St) (h : Once as s) (he : s.step a = some s') : Once (as ++ [a]) s' := by
  cases a with
  | call k =>
    cases he
    constructor
    · intro c
      have h1 := h.early c
      simp only [List.countP_append, starts, List.count_append]
      unfold starts at h1
      have : [k.pc].countP (Pc.early c) ≤ [Act.call k].count (Act.call (.runner c)) := by
        cases k with
        | runner d =>
          by_cases hd : d = c
          · subst hd; simp [Call.pc, Pc.early]
          · simp [Call.pc, Pc.early, hd]
        | stop d => simp [Call.pc, Pc.early]
        | setTarget d => simp [Call.pc, Pc.early]
      omega
    · intro hs hm
      rcases List.mem_append.mp hm with h1 | h1
      · exact (once_act h _).lost hs h1
      · have := List.mem_singleton.mp h1
        cases k <;> cases this
  | run i =>
    refine once_act ?_ _
    obtain ⟨p, hp, he⟩ := Option.bind_eq_some_iff.mp he
    cases p with
    | check c =>
      simp only [St.thread] at he
      split at he
      · rename_i hrun
        cases he
        have h1 := h.early c
        have h2 : 0 < s.threads.countP (Pc.early c) := List.countP_pos_iff.mpr ⟨_, List.mem_of_getElem? hp, by simp [Pc.early]⟩
        rw [hrun] at h1
        constructor
        · intro d
          have h3 := countP_set (Pc.early d) s.threads i (.check c) .returned hp
          have h4 := h.early d
          have h5 : Pc.returned.early d = false := rfl
          rw [h5] at h3
          show (s.threads.set i .returned).countP _ + (if s.running d then 1 else 0) ≤ _
          simp only [Bool.false_eq_true, if_false] at h3
          omega
        · intro hs
          have := hs c
          simp only [if_true] at h1
          omega
      · rename_i hrun
        cases he
        constructor
        · intro d
          have h3 := countP_set (Pc.early d) s.threads i (.check c) (.head c) hp
          have h4 := h.early d
          have h5 : (Pc.head c).early d = false := rfl
          rw [h5] at h3
          show (s.threads.set i (.head c)).countP _ + (if set s.running c true d then 1 else 0) ≤ _
          unfold set
          simp only [Bool.false_eq_true, if_false] at h3
          by_cases hd : d = c
          · subst hd
            rw [if_pos rfl, if_pos rfl]
            rw [if_neg hrun] at h4
            simp only [Pc.early, beq_self_eq_true, if_true] at h3
            omega
          · rw [if_neg hd]
            omega
        · intro hs hm
          rcases List.mem_or_eq_of_mem_set hm with h1 | h1
          · exact h.lost hs h1
          · cases h1
    | start c =>
      simp only [St.thread] at he
      split at he <;> cases he
      exact once_lock (once_put h hp (q := .check c) (fun d hd => hd) (by simp)) _
    | head c =>
      cases he
      exact once_put h hp (fun d hd => by split at hd <;> cases hd) (by split <;> simp)
    | recv c =>
      simp only [St.thread] at he
      split at he <;> cases he
      exact once_buf (once_put h hp (fun d hd => by cases hd) (by simp)) _
    | sending c =>
      simp only [St.thread] at he
      split at he <;> cases he
      exact once_buf (once_put h hp (fun d hd => by cases hd) (by simp)) _
    | _ =>
      simp only [St.thread] at he <;> (try split at he) <;> (first | cases he; done | skip) <;> cases he <;>
        first
        | exact once_put h hp (fun d hd => by cases hd) (by simp)
        | exact once_lock (once_put h hp (fun d hd => by cases hd) (by simp)) _
  | meet i j =>
    refine once_act ?_ _
    simp only [St.step, St.meets] at he
    split at he
    · rename_i c d hi hj
      split at he <;> cases he
      have hne : i ≠ j := by rintro rfl; rw [hi] at hj; cases hj
      have h1 := once_put h hi (q := .sent) (fun d hd => by cases hd) (by simp)
      exact once_put h1 (p := .recv d) (by rw [getElem?_put, if_neg hne]; exact hj) (fun d hd => by cases hd) (by simp)
    · cases he

theorem once_exec (as bs : List Act) (s s' : St) (h : Once as s) (he : s.exec bs = some s') : Once (as ++ bs) s' := by
  induction bs generalizing as s with
  | nil => cases he; rw [List.append_nil]; exact h
  | cons b bs ih =>
    simp only [St.exec] at he
    obtain ⟨s1, h1, h2⟩ := Option.bind_eq_some_iff.mp he
    have := ih (as ++ [b]) s1 (once_step as s b s1 h h1) h2
    rwa [List.append_assoc] at this

/-- C83, partial: if every runner is started at most once, then in every reachable state the lock
is free or the goroutine that holds it can release it in one step; so a `SetTarget` that waits can
always finish, within three steps. -/
theorem C83_started_once_partial (as : List Act) (s : St) (h : St.init.exec as = some s) (hs : ∀ c, starts c as ≤ 1) (i c : Nat)
    (hi : s.threads[i]? = some (.setWait c)) :
    ∃ bs s', bs.length ≤ 3 ∧ s.exec bs = some s' ∧ s'.threads[i]? = some .setDone ∧ s'.locked = false := by
  have ho := once_exec [] as .init s ⟨fun c => by simp [starts, St.init], fun _ => nofun⟩ h
  rw [List.nil_append] at ho
  have hx := excl_reachable ⟨as, h⟩
  have hlt := (List.getElem?_eq_some_iff.mp hi).1
  -- from an unlocked state: two steps
  have free : ∀ s : St, s.locked = false → s.threads[i]? = some (.setWait c) → ∃ s', s.exec [.run i, .run i] = some s' ∧ s'.threads[i]? = some .setDone ∧ s'.locked = false := by
    intro s hl hi
    have hlt := (List.getElem?_eq_some_iff.mp hi).1
    refine ⟨{ ({ s.put i (.setHold c) with locked := true } : St).put i .setDone with locked := false }, ?_, ?_, rfl⟩
    · have h1 : s.step (.run i) = some { s.put i (.setHold c) with locked := true } := by
        simp only [St.step, hi, Option.bind_some, St.thread, hl]
        rfl
      have h2 : ({ s.put i (.setHold c) with locked := true } : St).threads[i]? = some (.setHold c) := by
        show (s.put i _).threads[i]? = _
        rw [getElem?_put, if_pos rfl, if_pos hlt]
      have h3 : ({ s.put i (.setHold c) with locked := true } : St).step (.run i) =
          some { ({ s.put i (.setHold c) with locked := true } : St).put i .setDone with locked := false } := by
        simp only [St.step, h2, Option.bind_some, St.thread]
      simp only [St.exec, h1, Option.bind_some, h3]
    · show (({ s.put i (.setHold c) with locked := true } : St).put i .setDone).threads[i]? = _
      rw [getElem?_put, if_pos rfl, if_pos]
      simpa [St.put] using hlt
  cases hl : s.locked with
  | false =>
    obtain ⟨s', h1, h2⟩ := free s hl hi
    exact ⟨_, s', by simp, h1, h2⟩
  | true =>
    unfold Excl at hx
    rw [hl] at hx
    have h0 : s.lost = 0 := List.countP_eq_zero.mpr fun p hp hr => ho.lost hs (by have : p = .returned := eq_of_beq hr; rwa [this] at hp)
    have h1 : 0 < s.holders := by simp only [if_true] at hx; omega
    obtain ⟨p, hp, hh⟩ := List.countP_pos_iff.mp h1
    obtain ⟨j, hj⟩ := List.mem_iff_getElem?.mp hp
    have hne : i ≠ j := by rintro rfl; rw [hi] at hj; cases hj; cases hh
    obtain ⟨s1, h2, h3⟩ : ∃ s1, s.step (.run j) = some s1 ∧ s1.locked = false := by
      cases p with
      | check d =>
        have h4 := ho.early d
        have h5 : 0 < s.threads.countP (Pc.early d) := List.countP_pos_iff.mpr ⟨_, hp, by simp [Pc.early]⟩
        have h6 := hs d
        have h7 : ¬ s.running d = true := by
          intro h7
          rw [h7] at h4
          simp only [if_true] at h4
          omega
        exact ⟨{ s.put j (.head d) with running := set s.running d true, locked := false }, by simp [St.step, hj, St.thread, h7], rfl⟩
      | meet d => exact ⟨{ s.put j (.head d) with locked := false }, by simp only [St.step, hj, Option.bind_some, St.thread], rfl⟩
      | setHold d => exact ⟨{ s.put j .setDone with locked := false }, by simp only [St.step, hj, Option.bind_some, St.thread], rfl⟩
      | _ => cases hh
    obtain ⟨s', h4, h5⟩ := free s1 h3 (by rw [step_other h2 i hne]; exact hi)
    exact ⟨[.run j, .run i, .run i], s', by simp, by simp only [St.exec, h2, Option.bind_some]; exact h4, h5⟩

/-- Non-vacuity: two clients, each started once; `SetTarget` waits while the runner holds the lock. -/
example : ∃ s, St.init.exec [.call (.runner 0), .call (.runner 1), .run 0, .run 0, .run 0, .run 0, .run 0, .call (.setTarget 0), .call (.stop 1)] = some s ∧
    s.locked = true ∧ s.threads[2]? = some (.setWait 0) := ⟨_, rfl, rfl, rfl⟩

/-! ### C89 -/

/-- C89: at most one token is requested in one call. -/
theorem C89_one_load (balance : Bytes → Bytes → Int) (load : Bytes → Bytes → Bool) (ts : Targets) : (meetTarget balance load ts).loads.length ≤ 1 := by
  induction ts with
  | nil => simp [meetTarget]
  | cons r ts ih =>
    obtain ⟨o, t⟩ := r
    simp only [meetTarget]
    split
    · exact ih
    · split
      · exact ih
      · simp

/-- C89: a token is requested only for an owner with a target, and only if the balance is under the low
water mark, or if loading has begun, and in both cases only under the high water mark. -/
theorem C89_only_needed (balance : Bytes → Bytes → Int) (load : Bytes → Bytes → Bool) (ts : Targets) (u o : Bytes) (h : (u, o) ∈ (meetTarget balance load ts).loads) :
    ∃ t, (o, t) ∈ ts ∧ t.usage = u ∧ balance u o < t.high ∧ (balance u o < t.low ∨ 0 < t.balance) := by
  induction ts with
  | nil => simp [meetTarget] at h
  | cons r ts ih =>
    obtain ⟨o', t⟩ := r
    simp only [meetTarget] at h
    split at h
    · obtain ⟨t', h1, h2⟩ := ih h
      exact ⟨t', List.mem_cons_of_mem _ h1, h2⟩
    · split at h
      · obtain ⟨t', h1, h2⟩ := ih h
        exact ⟨t', List.mem_cons_of_mem _ h1, h2⟩
      · cases List.mem_singleton.mp h
        exact ⟨t, by simp, rfl, by omega, by omega⟩

/-- C89: a call that requests nothing left no owner under its low water mark, and none under the
high one while loading, and says so. -/
theorem C89_idle (balance : Bytes → Bytes → Int) (load : Bytes → Bytes → Bool) (ts : Targets) :
    ((meetTarget balance load ts).loads = [] ↔ ∀ o t, (o, t) ∈ ts → (t.high ≤ balance t.usage o) ∨ (t.low ≤ balance t.usage o ∧ t.balance ≤ 0)) ∧
    ((meetTarget balance load ts).acted = false ↔ (meetTarget balance load ts).loads = []) := by
  induction ts with
  | nil => simp [meetTarget]
  | cons r ts ih =>
    obtain ⟨o', t⟩ := r
    simp only [meetTarget]
    split
    · rename_i hc
      refine ⟨ih.1.trans ⟨fun h o t' hm => ?_, fun h o t' hm => h o t' (List.mem_cons_of_mem _ hm)⟩, ih.2⟩
      rcases List.mem_cons.mp hm with e | hm
      · cases e; exact .inr ⟨hc.1, hc.2⟩
      · exact h o t' hm
    · split
      · rename_i _ hc
        refine ⟨ih.1.trans ⟨fun h o t' hm => ?_, fun h o t' hm => h o t' (List.mem_cons_of_mem _ hm)⟩, ih.2⟩
        rcases List.mem_cons.mp hm with e | hm
        · cases e; exact .inl hc
        · exact h o t' hm
      · rename_i h1 h2
        refine ⟨⟨nofun, fun h => ?_⟩, by simp⟩
        have := h o' t (by simp)
        omega

/-- C89: owners, usages and water marks are never changed. -/
theorem C89_kept (balance : Bytes → Bytes → Int) (load : Bytes → Bytes → Bool) (ts : Targets) :
    (meetTarget balance load ts).targets.map (fun r => (r.1, r.2.usage, r.2.low, r.2.high)) = ts.map fun r => (r.1, r.2.usage, r.2.low, r.2.high) := by
  induction ts with
  | nil => rfl
  | cons r ts ih =>
    obtain ⟨o', t⟩ := r
    simp only [meetTarget]
    split
    · simp [ih]
    · split
      · simp [ih]
      · simp

/-- C89: an owner for whom loading has begun under the low water mark, and for whom a request
failed, is loaded by the next call that reaches it, until the high water mark is reached, even if
its balance is no longer under the low one. -/
theorem C89_continues (balance balance' : Bytes → Bytes → Int) (load load' : Bytes → Bytes → Bool) (o : Bytes) (t : Target) (rest : Targets)
    (h : balance t.usage o < t.low) (hh : balance t.usage o < t.high) (hf : load t.usage o = false) (hb : balance' t.usage o < t.high) :
    ((meetTarget balance load ((o, t) :: rest)).loads = [(t.usage, o)]) ∧
    (meetTarget balance' load' (meetTarget balance load ((o, t) :: rest)).targets).loads = [(t.usage, o)] := by
  have h1 : meetTarget balance load ((o, t) :: rest) = ⟨(o, { t with balance := t.high - balance t.usage o }) :: rest, [(t.usage, o)], true⟩ := by
    simp only [meetTarget]
    rw [if_neg (by omega), if_neg (by omega), hf]
    rfl
  rw [h1]
  refine ⟨rfl, ?_⟩
  simp only [meetTarget]
  rw [if_neg (by omega), if_neg (by omega)]

/-- C89: once the token that fills the wallet to the high water mark was loaded, the next call requests
nothing for this owner unless the balance is under the low water mark again. -/
theorem C89_stops (balance balance' : Bytes → Bytes → Int) (load load' : Bytes → Bytes → Bool) (o : Bytes) (t : Target) (rest : Targets)
    (h : balance t.usage o < t.low ∨ 0 < t.balance) (hh : balance t.usage o + 1 = t.high) (hs : load t.usage o = true) (hb : t.low ≤ balance' t.usage o) :
    ((meetTarget balance load ((o, t) :: rest)).loads = [(t.usage, o)]) ∧
    (meetTarget balance' load' (meetTarget balance load ((o, t) :: rest)).targets).loads = (meetTarget balance' load' rest).loads := by
  have h1 : meetTarget balance load ((o, t) :: rest) = ⟨(o, { t with balance := t.high - balance t.usage o - 1 }) :: rest, [(t.usage, o)], true⟩ := by
    simp only [meetTarget]
    rw [if_neg (by omega), if_neg (by omega), hs]
    rfl
  rw [h1]
  refine ⟨rfl, ?_⟩
  simp only [meetTarget]
  rw [if_pos (by omega)]

/-- Non-vacuity: one token is missing, and loaded; then some are spent. -/
example : (meetTarget (fun _ _ => 4) (fun _ _ => true) (meetTarget (fun _ _ => 5) (fun _ _ => true) [([1], ⟨[117], 3, 6, 2⟩)]).targets).loads = [] := by
  decide

/-- Non-vacuity of C89: one of two owners has too few tokens. -/
example : meetTarget (fun _ o => if o = [1] then 5 else 2) (fun _ _ => true) [([1], ⟨[117], 3, 6, 0⟩), ([2], ⟨[117], 3, 6, 0⟩)] =
    ⟨[([1], ⟨[117], 3, 6, 0⟩), ([2], ⟨[117], 3, 6, 3⟩)], [([117], [2])], true⟩ := by decide

end Verif.Guard.Runner

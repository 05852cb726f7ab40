/-
The end of `mutectrl` and `mutecrypt` (cmd/mutectrl/mutectrl.go:24-53, cmd/mutecrypt/mutecrypt.go:24-53,
util/interrupt/interrupt.go): the main goroutine, the goroutine that handles interrupts and the one that runs the
command, connected by unbuffered channels.

Simplifications: `Close` of the engine is one step and ends; a command opens the database any number of times
while it runs and then ends with a result. An interrupt that comes before `signal.Notify` kills the process and
is not modelled.
-/
namespace Verif.Ctrl.Shutdown

/-- The main goroutine. -/
inductive Main
  /-- before `AddInterruptHandler` has started the handler (interrupt.go:55-59) -/
  | notify
  /-- sends the handler on the channel (interrupt.go:61) -/
  | register
  /-- mutectrl.go:38 -/
  | go
  /-- receives from the shutdown channel (mutectrl.go:46) -/
  | wait
  /-- the deferred `Close` (mutectrl.go:29) -/
  | close (ok : Bool)
  /-- the deferred `Flush` (mutectrl.go:25) -/
  | flush (ok : Bool)
  /-- the process has ended, with exit status 0 if the flag is set (mutectrl.go:49-53) -/
  | exited (ok : Bool)
  deriving DecidableEq

/-- The goroutine of interrupts (interrupt.go:27-47). -/
inductive Handler
  | off
  /-- in `select` -/
  | loop
  /-- calls the callback -/
  | calling
  /-- sends on the shutdown channel -/
  | send
  deriving DecidableEq

/-- The goroutine that runs the command (mutectrl.go:38-44). -/
inductive Engine
  | off
  | run
  | send (ok : Bool)
  | done (ok : Bool)
  deriving DecidableEq

/-- The state; `sig` tells that the channel of signals, which has room for one, is full, `registered` that the
callback is known. The last two fields count the interrupts, and those that came before the callback was known. -/
structure State where
  main : Main
  handler : Handler
  engine : Engine
  sig : Bool
  registered : Bool
  dbOpen : Bool
  signals : Nat
  early : Nat
  deriving DecidableEq

def start : State := ⟨.notify, .off, .off, false, false, false, 0, 0⟩

/-- Who does a step. -/
inductive Who
  | main | handler | engine | user
  deriving DecidableEq

/-- The process is alive. -/
def State.alive (s : State) : Prop := ∀ b, s.main ≠ .exited b

/-- One step. Two goroutines that meet on a channel are one step, counted for the sender. -/
inductive Step : Who → State → State → Prop
  /- interrupt.go:55-59 -/
  | notify (s) : s.main = .notify → Step .main s { s with main := .register, handler := .loop }
  /- interrupt.go:61 and 44-45 -/
  | register (s) : s.main = .register → s.handler = .loop → Step .main s { s with main := .go, registered := true }
  /- mutectrl.go:38-46 -/
  | go (s) : s.main = .go → Step .main s { s with main := .wait, engine := .run }
  | close (s b) : s.main = .close b → Step .main s { s with main := .flush b, dbOpen := false }
  | flush (s b) : s.main = .flush b → Step .main s { s with main := .exited b }
  /- a signal is received (interrupt.go:34-38) -/
  | take (s) : s.alive → s.handler = .loop → s.sig = true →
      Step .handler s { s with sig := false, handler := if s.registered then .calling else .send }
  /- the callback (mutectrl.go:32-35) -/
  | call (s) : s.alive → s.handler = .calling → Step .handler s { s with handler := .send, dbOpen := false }
  /- interrupt.go:41-42 -/
  | shutdown (s) : s.handler = .send → s.main = .wait → Step .handler s { s with handler := .loop, main := .close true }
  /- the command opens the database (ctrlengine.go:1402) -/
  | opens (s) : s.alive → s.engine = .run → Step .engine s { s with dbOpen := true }
  /- the command ends -/
  | ends (s b) : s.alive → s.engine = .run → Step .engine s { s with engine := .send b }
  /- mutectrl.go:39-43 -/
  | report (s b) : s.engine = .send b → s.main = .wait → Step .engine s { s with engine := .done b, main := .close b }
  /- the user interrupts the program -/
  | signal (s) : s.alive → s.main ≠ .notify →
      Step .user s { s with sig := true, signals := s.signals + 1, early := if s.registered then s.early else s.early + 1 }

/-- The executions from a state. -/
inductive Reach (s₀ : State) : State → Prop
  | refl : Reach s₀ s₀
  | step (w s s') : Reach s₀ s → Step w s s' → Reach s₀ s'

/-- A number of steps of the main goroutine and the one of interrupts, without the command and the user. -/
inductive Own : Nat → State → State → Prop
  | zero (s) : Own 0 s s
  | step (n w s s' s'') : Step w s s' → w = .main ∨ w = .handler → Own n s' s'' → Own (n + 1) s s''

/-! ### invariants -/

/-- What holds in every execution. -/
structure Inv (s : State) : Prop where
  off : s.main = .notify → s.handler = .off ∧ s.sig = false
  on : s.main ≠ .notify → s.handler ≠ .off
  reg : s.registered = true ↔ s.main ≠ .notify ∧ s.main ≠ .register
  run : s.engine = .off ↔ s.main = .notify ∨ s.main = .register ∨ s.main = .go
  calls : s.handler = .calling → s.registered = true
  /-- before the callback is known the handler is busy only after an early interrupt -/
  busy : s.registered = false → s.early = 0 → s.sig = false ∧ s.handler ≠ .send
  early : s.early ≤ s.signals
  /-- without interrupts only the command ends the program -/
  quiet : s.signals = 0 → s.sig = false ∧ (s.handler = .off ∨ s.handler = .loop)
  result : s.signals = 0 → ∀ b, s.main = .close b ∨ s.main = .flush b ∨ s.main = .exited b → s.engine = .done b
  waiting : s.main = .wait → ∀ b, s.engine ≠ .done b
  closed : s.signals = 0 → ∀ b, s.main = .flush b ∨ s.main = .exited b → s.dbOpen = false

theorem inv_start : Inv start := by
  constructor <;> simp [start]

theorem step_inv {w : Who} {s s' : State} (h : Inv s) (st : Step w s s') : Inv s' := by
  obtain ⟨h1, h2, h3, h4, h5, h6, h7, h8, h9, h10, h11⟩ := h
  obtain ⟨m, hd, en, sg, rg, db, sn, ea⟩ := s
  cases st <;> simp only [State.alive] at * <;> (constructor <;> simp_all <;> grind)

theorem reach_inv {s : State} (h : Reach start s) : Inv s := by
  induction h with
  | refl => exact inv_start
  | step w s s' _ st ih => exact step_inv ih st

/-! ### C119 -/

/-- **C119** (partial) If the user does not interrupt the program, it ends with the result of the command, and the database is
closed. With interrupts see `C119_interrupt_status_violated`. -/
theorem C119_status_partial (s : State) (h : Reach start s) (hs : s.signals = 0) (ok : Bool) (he : s.main = .exited ok) :
    s.engine = .done ok ∧ s.dbOpen = false :=
  ⟨(reach_inv h).result hs ok (.inr (.inr he)), (reach_inv h).closed hs ok (.inr he)⟩

/-- **C119** The program never ends with an error status unless the command did: an interrupt gives status 0. -/
theorem C119_error_status (s : State) (h : Reach start s) (he : s.main = .exited false) : s.engine = .done false := by
  have key : ∀ s, Reach start s → (s.main = .close false ∨ s.main = .flush false ∨ s.main = .exited false) → s.engine = .done false := by
    intro s h
    induction h with
    | refl => simp [start]
    | step w s s' _ st ih =>
      obtain ⟨m, hd, en, sg, rg, db, sn, ea⟩ := s
      cases st <;> simp only [State.alive] at * <;> simp_all
      all_goals (first | (split <;> simp_all) | grind)
  exact key s h (.inr (.inr he))

/-- **C119** (partial) If no interrupt comes before the callback is known, the program is never stuck: as long as it has not ended,
one of the goroutines can go on (the command can be the one to do so while it runs). Otherwise see
`C119_early_interrupt_violated`. -/
theorem C119_no_deadlock_partial (s : State) (h : Reach start s) (he : s.early = 0) (ha : s.alive) :
    ∃ w s', w ≠ .user ∧ Step w s s' := by
  obtain ⟨h1, h2, h3, h4, h5, h6, h7, h8, h9, h10, h11⟩ := reach_inv h
  cases hm : s.main with
  | notify => exact ⟨.main, _, by simp, .notify s hm⟩
  | register =>
    have hr : s.registered = false := by
      cases hr : s.registered with
      | false => rfl
      | true => exact absurd hm (h3.mp hr).2
    have hl : s.handler = .loop := by
      have := h2 (by simp [hm])
      cases hh : s.handler with
      | off => exact absurd hh this
      | loop => rfl
      | calling => have := h5 hh; rw [hr] at this; cases this
      | send => exact absurd hh (h6 hr he).2
    exact ⟨.main, _, by simp, .register s hm hl⟩
  | go => exact ⟨.main, _, by simp, .go s hm⟩
  | wait =>
    cases hen : s.engine with
    | off => have := h4.mp hen; rw [hm] at this; simp at this
    | run => exact ⟨.engine, _, by simp, .ends s true ha hen⟩
    | send b => exact ⟨.engine, _, by simp, .report s b hen hm⟩
    | done b => exact absurd hen (h10 hm b)
  | close b => exact ⟨.main, _, by simp, .close s b hm⟩
  | flush b => exact ⟨.main, _, by simp, .flush s b hm⟩
  | exited b => exact absurd hm (ha b)

/-- **C119** After an interrupt (the signal waits, or the handler is busy), if the callback is known, the program can end
within six steps of the main goroutine and the handler, whatever the command does, and closes the database before (unless
that was done already). -/
theorem C119_interrupt_ends (s : State) (h : Reach start s) (hr : s.registered = true) (ha : s.alive)
    (hi : s.sig = true ∨ s.handler ≠ .loop) : ∃ n s' ok, n ≤ 6 ∧ Own n s s' ∧ s'.main = .exited ok ∧ ((∀ b, s.main ≠ .flush b) → s'.dbOpen = false) := by
  have finishB : ∀ s b, s.main = .flush b → s.dbOpen = false → ∃ n s', n ≤ 1 ∧ Own n s s' ∧ s'.main = .exited b ∧ s'.dbOpen = false :=
    fun s b hm hd => ⟨1, _, Nat.le_refl _, .step _ _ _ _ _ (.flush s b hm) (.inl rfl) (.zero _), rfl, hd⟩
  have finish : ∀ s b, s.main = .close b → ∃ n s', n ≤ 2 ∧ Own n s s' ∧ s'.main = .exited b ∧ s'.dbOpen = false := by
    intro s b hm
    obtain ⟨n, s', hn, ho, h1, h2⟩ := finishB { s with main := .flush b, dbOpen := false } b rfl rfl
    exact ⟨n + 1, s', by omega, .step _ _ _ _ _ (.close s b hm) (.inl rfl) ho, h1, h2⟩
  have send : ∀ s, s.main = .wait → s.handler = .send → ∃ n s', n ≤ 3 ∧ Own n s s' ∧ s'.main = .exited true ∧ s'.dbOpen = false := by
    intro s hm hh
    obtain ⟨n, s', hn, ho, h1, h2⟩ := finish { s with handler := .loop, main := .close true } true rfl
    exact ⟨n + 1, s', by omega, .step _ _ _ _ _ (.shutdown s hh hm) (.inr rfl) ho, h1, h2⟩
  have calling : ∀ s, s.main = .wait → s.handler = .calling → ∃ n s', n ≤ 4 ∧ Own n s s' ∧ s'.main = .exited true ∧ s'.dbOpen = false := by
    intro s hm hh
    obtain ⟨n, s', hn, ho, h1, h2⟩ := send { s with handler := .send, dbOpen := false } hm rfl
    exact ⟨n + 1, s', by omega, .step _ _ _ _ _ (.call s (by intro b; rw [hm]; simp) hh) (.inr rfl) ho, h1, h2⟩
  have wait : ∀ s, s.main = .wait → s.registered = true → s.handler ≠ .off → (s.sig = true ∨ s.handler ≠ .loop) →
      ∃ n s', n ≤ 5 ∧ Own n s s' ∧ s'.main = .exited true ∧ s'.dbOpen = false := by
    intro s hm hr ho hi
    cases hh : s.handler with
    | off => exact absurd hh ho
    | loop =>
      have hs : s.sig = true := hi.resolve_right (by simp [hh])
      obtain ⟨n, s', hn, ho, h1, h2⟩ := calling { s with sig := false, handler := if s.registered then .calling else .send } hm (by simp [hr])
      exact ⟨n + 1, s', by omega, .step _ _ _ _ _ (.take s (by intro b; rw [hm]; simp) hh hs) (.inr rfl) ho, h1, h2⟩
    | calling =>
      obtain ⟨n, s', hn, ho, h1⟩ := calling s hm hh
      exact ⟨n, s', by omega, ho, h1⟩
    | send =>
      obtain ⟨n, s', hn, ho, h1⟩ := send s hm hh
      exact ⟨n, s', by omega, ho, h1⟩
  have hv := reach_inv h
  obtain ⟨hn1, hn2⟩ := hv.reg.mp hr
  have hoff := hv.on hn1
  cases hm : s.main with
  | notify => exact absurd hm hn1
  | register => exact absurd hm hn2
  | go =>
    obtain ⟨n, s', hn, ho, h1, h2⟩ := wait { s with main := .wait, engine := .run } rfl hr hoff hi
    exact ⟨n + 1, s', true, by omega, .step _ _ _ _ _ (.go s hm) (.inl rfl) ho, h1, fun _ => h2⟩
  | wait =>
    obtain ⟨n, s', hn, ho, h1, h2⟩ := wait s hm hr hoff hi
    exact ⟨n, s', true, by omega, ho, h1, fun _ => h2⟩
  | close b =>
    obtain ⟨n, s', hn, ho, h1, h2⟩ := finish s b hm
    exact ⟨n, s', b, by omega, ho, h1, fun _ => h2⟩
  | flush b =>
    exact ⟨1, _, b, by omega, .step _ _ _ _ _ (.flush s b hm) (.inl rfl) (.zero _), rfl, fun hf => absurd rfl (hf b)⟩
  | exited b => exact absurd hm (ha b)

/-- A state after an interrupt in the middle of a command. -/
theorem interrupted : Reach start ⟨.wait, .loop, .run, true, true, true, 1, 0⟩ := by
  have h1 := Reach.step _ _ _ Reach.refl (.notify start rfl)
  have h2 := Reach.step _ _ _ h1 (.register _ rfl rfl)
  have h3 := Reach.step _ _ _ h2 (.go _ rfl)
  have h4 := Reach.step _ _ _ h3 (.opens _ (by simp [State.alive]) rfl)
  exact Reach.step _ _ _ h4 (.signal _ (by simp [State.alive]) (by simp))

/-- The hypotheses of `C119_interrupt_ends` and `C119_no_deadlock_partial` are met. -/
example : ∃ s, Reach start s ∧ s.registered = true ∧ s.alive ∧ s.sig = true ∧ s.early = 0 ∧ s.engine = .run :=
  ⟨_, interrupted, rfl, by simp [State.alive], rfl, rfl, rfl⟩

/-- The hypotheses of `C119_status_partial` and `C119_error_status` are met: a command fails. -/
example : ∃ s, Reach start s ∧ s.signals = 0 ∧ s.main = .exited false := by
  have h1 := Reach.step _ _ _ Reach.refl (.notify start rfl)
  have h2 := Reach.step _ _ _ h1 (.register _ rfl rfl)
  have h3 := Reach.step _ _ _ h2 (.go _ rfl)
  have h4 := Reach.step _ _ _ h3 (.opens _ (by simp [State.alive]) rfl)
  have h5 := Reach.step _ _ _ h4 (.ends _ false (by simp [State.alive]) rfl)
  have h6 := Reach.step _ _ _ h5 (.report _ false rfl rfl)
  have h7 := Reach.step _ _ _ h6 (.close _ false rfl)
  have h8 := Reach.step _ _ _ h7 (.flush _ false rfl)
  exact ⟨_, h8, rfl, rfl⟩

/-- **C119** (finding) A program that is interrupted in the middle of a command ends with status 0, like one whose command
succeeded. The command goes on until then, so that the database can be open again at the end. -/
theorem C119_interrupt_status_violated : ∃ s, Reach start s ∧ s.main = .exited true ∧ s.engine = .run ∧ s.early = 0 ∧ s.dbOpen = true := by
  have h1 := Reach.step _ _ _ interrupted (.take _ (by simp [State.alive]) rfl rfl)
  have h2 := Reach.step _ _ _ h1 (.call _ (by simp [State.alive]) rfl)
  have h3 := Reach.step _ _ _ h2 (.shutdown _ rfl rfl)
  have h4 := Reach.step _ _ _ h3 (.close _ true rfl)
  have h5 := Reach.step _ _ _ h4 (.opens _ (by simp [State.alive]) rfl)
  have h6 := Reach.step _ _ _ h5 (.flush _ true rfl)
  exact ⟨_, h6, rfl, rfl, rfl, rfl⟩

/-- **C119** (finding) An interrupt that is handled before the callback is known makes the program hang for ever: the handler waits
for the main goroutine and the main goroutine for the handler. Further interrupts do not help. -/
theorem C119_early_interrupt_violated : ∃ s, Reach start s ∧ ∀ s', Reach s s' → s'.alive ∧ ∀ w s'', Step w s' s'' → w = .user := by
  have h1 := Reach.step _ _ _ Reach.refl (.notify start rfl)
  have h2 := Reach.step _ _ _ h1 (.signal _ (by simp [State.alive]) (by simp))
  have h3 := Reach.step _ _ _ h2 (.take _ (by simp [State.alive]) rfl rfl)
  have key : ∀ s', Reach ⟨.register, .send, .off, false, false, false, 1, 1⟩ s' → s'.main = .register ∧ s'.handler = .send ∧ s'.engine = .off := by
    intro s' hr
    induction hr with
    | refl => exact ⟨rfl, rfl, rfl⟩
    | step w s s' _ st ih =>
      obtain ⟨i1, i2, i3⟩ := ih
      cases st <;> simp_all
  refine ⟨_, h3, ?_⟩
  intro s' hr
  obtain ⟨k1, k2, k3⟩ := key s' hr
  refine ⟨by intro b; rw [k1]; simp, ?_⟩
  intro w s'' st
  cases st <;> simp_all

end Verif.Ctrl.Shutdown

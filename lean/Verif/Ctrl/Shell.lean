/-
`mutectrl` without a command: the interactive shell (ctrlengine/ctrlengine.go:304-396, 461-472), over every session.

`App.Run` of github.com/urfave/cli v1.20.0 is modelled up to the choice of the command. What a command does is a
parameter; it includes what its `Before` prepares. White space is the ASCII one. Lines of the log and the completion
of commands are left out. Giving both forms of an option (`-h --help`) is an error in the library and counts as a
request for help here. The input is what the user does at the prompts; that a nested shell closes the line editor its
caller goes on with is not modelled.
-/
import Verif.Crypt.Loop

set_option autoImplicit false

namespace Verif.Ctrl.Shell
open Verif.Flags
open Verif.Crypt.Loop (St txtHelp txtH txtVersion txtV txtHomedir txtLogconsole txtQuit txtReady)

def txtLogdir : Bytes := "logdir".toUTF8.data.toList
def txtLoglevel : Bytes := "loglevel".toUTF8.data.toList
def txtOffline : Bytes := "offline".toUTF8.data.toList
def txtActive : Bytes := "active user ID: ".toUTF8.data.toList
def txtNone : Bytes := "none".toUTF8.data.toList
def txtAborting : Bytes := "aborting...".toUTF8.data.toList

/-- The global options (ctrlengine.go:431-460; the library adds the ones for help and the version). -/
def decl : Decl := fun n =>
  if n ∈ [txtOffline, txtLogconsole, txtHelp, txtH, txtVersion, txtV] then some .bool
  else if n ∈ [txtHomedir, txtLogdir, txtLoglevel, "input-fd".toUTF8.data.toList, "output-fd".toUTF8.data.toList,
    "status-fd".toUTF8.data.toList, "passphrase-fd".toUTF8.data.toList, "command-fd".toUTF8.data.toList] then some .str
  else none

/-- What happens at a prompt: a line, Ctrl-C, or the end of the input. -/
inductive In
  | line (l : Bytes)
  | abort
  | eof
  deriving DecidableEq

/-- The commands, `prepare(c, true, true)` in the action of the application (`none` is an error), the active user ID
(`none` is an error of the database), the defaults of the three options that are passed on, and the texts of errors. -/
structure Machine (σ : Type) where
  known : Bytes → Bool
  exec : Settings → List Bytes → σ → σ × Crypt.Loop.Res
  enter : Settings → σ → Option σ
  active : σ → Option Bytes
  homedir : Bytes
  logdir : Bytes
  loglevel : Bytes
  usage : List Bytes → Bytes
  unknown : List Bytes → Bytes

variable {σ : Type}

/-- What a call of `app.Run` comes to. -/
inductive Act
  | refused (e : Bytes)
  | done (e : Option Bytes)
  | died
  /-- `errExit` -/
  | exit
  /-- the action of the application without arguments: another shell with these global options -/
  | nested (S : Settings)
  deriving DecidableEq

/-- `app.Run` (App.Run of the library, ctrlengine.go:461-472, 317-321, 1341-1353). -/
def app (M : Machine σ) (args : List Bytes) (st : St σ) : Act × St σ :=
  match parse decl args with
  | none => (.refused (M.usage args), st)
  | some (S, rest) =>
    if S.on txtHelp ∨ S.on txtH ∨ S.on txtVersion ∨ S.on txtV then (.done none, st)
    else match rest with
      | [] =>
        match M.enter S st.world with
        | none => (.died, st)
        | some w => (.nested S, { st with world := w })
      | name :: more =>
        if name = txtQuit ∧ more = [] then (.exit, st)
        else if M.known name then
          let r := M.exec S (name :: more) st.world
          let st := { st with world := r.1, ran := st.ran ++ [(S, name :: more)] }
          match r.2 with
          | .refused e => (.refused e, st)
          | .done e => (.done e, st)
          | .died => (.died, st)
        else match M.enter S st.world with
          | none => (.died, st)
          | some w => (.done (some (M.unknown (name :: more))), { st with world := w })

/-- How a shell ends. -/
inductive End
  | quit
  | closed
  | died
  deriving DecidableEq

/-- The options that are passed in again (ctrlengine.go:371-377). -/
def again (M : Machine σ) (S : Settings) : List Bytes :=
  [45 :: 45 :: txtHomedir, S.get txtHomedir M.homedir, 45 :: 45 :: txtLogdir, S.get txtLogdir M.logdir,
    45 :: 45 :: txtLoglevel, S.get txtLoglevel M.loglevel]

/-- `loop` (ctrlengine.go:316-396) with the global options `S` of its context; what is left of the input. The first
argument bounds the rounds. No input left is the end of the input. -/
def loop (M : Machine σ) : Nat → Settings → List In → St σ → Option (St σ × List In × End)
  | 0, _, _, _ => none
  | k + 1, S, ins, st =>
    match M.active st.world with
    | none => some (st, ins, .died)
    | some a =>
      let st := st.say [txtActive ++ (if a = [] then txtNone else a), txtReady]
      match ins with
      | [] => some (st, [], .closed)
      | .eof :: ins => some (st, ins, .closed)
      | .abort :: ins => some (st.say [txtAborting], ins, .closed)
      | .line l :: ins =>
        if l = [] then loop M k S ins st
        else
          let r := app M (again M S ++ Conf.fields 32 l) st
          match r.1 with
          | .refused e => loop M k S ins (r.2.say [e])
          | .done none => loop M k S ins r.2
          | .done (some e) => loop M k S ins (r.2.say [e])
          | .died => some (r.2, ins, .died)
          | .exit => some (r.2, ins, .quit)
          | .nested S' =>
            match loop M k S' ins r.2 with
            | none => none
            | some (st', ins', .died) => some (st', ins', .died)
            | some (st', ins', _) => loop M k S ins' st'

/-! ### Specification -/

/-- The words of a line. -/
def words (l : Bytes) : List Bytes := Conf.fields 32 l

/-- A line that is empty or begins with the name of a command. -/
def Plain (l : Bytes) : Prop := l = [] ∨ ∃ w ws, words l = w :: ws ∧ Word w

/-- The options of every command. -/
def kept (M : Machine σ) (S : Settings) : Settings :=
  [(txtHomedir, S.get txtHomedir M.homedir), (txtLogdir, S.get txtLogdir M.logdir), (txtLoglevel, S.get txtLoglevel M.loglevel)]

/-- One command with the global options `S`: what it does and what is reported. -/
def single (M : Machine σ) (S : Settings) (c : List Bytes) (st : St σ) : St σ × Crypt.Loop.Res :=
  if M.known (c.headD []) then
    let r := M.exec S c st.world
    ({ st with world := r.1, ran := st.ran ++ [(S, c)] }, r.2)
  else match M.enter S st.world with
    | none => (st, .died)
    | some w => ({ st with world := w }, .done (some (M.unknown c)))

/-- A session: before every input the active user ID and READY are shown; the commands are executed one after the
other with the options `S`, until `quit`, Ctrl-C, the end of the input, or a fatal error. Errors are reported. -/
def session (M : Machine σ) (S : Settings) : List In → St σ → St σ × List In × End
  | ins, st =>
    match M.active st.world with
    | none => (st, ins, .died)
    | some a =>
      let st := st.say [txtActive ++ (if a = [] then txtNone else a), txtReady]
      match ins with
      | [] => (st, [], .closed)
      | .eof :: ins => (st, ins, .closed)
      | .abort :: ins => (st.say [txtAborting], ins, .closed)
      | .line l :: ins =>
        if l = [] then session M S ins st
        else if words l = [txtQuit] then (st, ins, .quit)
        else match single M S (words l) st with
          | (st, .died) => (st, ins, .died)
          | (st, .refused e) => session M S ins (st.say [e])
          | (st, .done e) => session M S ins (st.say e.toList)

/-! ### Proofs -/

theorem parse_again (M : Machine σ) (S : Settings) (rest : List Bytes) :
    parse decl (again M S ++ rest) = (parse decl rest).map fun r => (kept M S ++ r.1, r.2) := by
  have n1 : Name txtHomedir := ⟨by decide +kernel, by decide +kernel, by decide +kernel⟩
  have n2 : Name txtLogdir := ⟨by decide +kernel, by decide +kernel, by decide +kernel⟩
  have n3 : Name txtLoglevel := ⟨by decide +kernel, by decide +kernel, by decide +kernel⟩
  have d1 : decl txtHomedir = some .str := by decide +kernel
  have d2 : decl txtLogdir = some .str := by decide +kernel
  have d3 : decl txtLoglevel = some .str := by decide +kernel
  unfold again
  simp only [List.cons_append, List.nil_append]
  rw [parse_pair decl _ _ _ n1 d1, parse_pair decl _ _ _ n2 d2, parse_pair decl _ _ _ n3 d3]
  cases parse decl rest with
  | none => rfl
  | some r => rfl

theorem on_ne {S : Settings} {n : Bytes} (h : ∀ p ∈ S, p.1 ≠ n) : S.on n = false := by
  have : S.reverse.find? (·.1 = n) = none := by
    rw [List.find?_eq_none]
    intro p hp
    simpa using h p (List.mem_reverse.1 hp)
  simp only [Settings.on, this, Option.bind_none, Option.getD_none]

theorem kept_off (M : Machine σ) (S : Settings) {n : Bytes} (h1 : n ≠ txtHomedir) (h2 : n ≠ txtLogdir) (h3 : n ≠ txtLoglevel) :
    (kept M S).on n = false := by
  apply on_ne
  intro p hp
  simp only [kept, List.mem_cons, List.not_mem_nil, or_false] at hp
  rcases hp with rfl | rfl | rfl
  · exact h1.symm
  · exact h2.symm
  · exact h3.symm

theorem kept_get (M : Machine σ) (S : Settings) :
    (kept M S).get txtHomedir M.homedir = S.get txtHomedir M.homedir ∧ (kept M S).get txtLogdir M.logdir = S.get txtLogdir M.logdir ∧
    (kept M S).get txtLoglevel M.loglevel = S.get txtLoglevel M.loglevel := by
  have e1 : ¬(txtLoglevel = txtHomedir) := by decide +kernel
  have e2 : ¬(txtLogdir = txtHomedir) := by decide +kernel
  have e3 : ¬(txtLoglevel = txtLogdir) := by decide +kernel
  generalize h1 : S.get txtHomedir M.homedir = v1
  generalize h2 : S.get txtLogdir M.logdir = v2
  generalize h3 : S.get txtLoglevel M.loglevel = v3
  unfold kept Settings.get
  unfold Settings.get at h1 h2 h3
  rw [h1, h2, h3]
  refine ⟨?_, ?_, ?_⟩ <;> simp [e1, e2, e3]

theorem app_plain (M : Machine σ) (S : Settings) {l w : Bytes} {ws : List Bytes} (hw : words l = w :: ws) (h : Word w) (st : St σ) :
    app M (again M S ++ words l) st =
      if words l = [txtQuit] then (.exit, st)
      else ((match (single M (kept M S) (words l) st).2 with
        | .refused e => .refused e
        | .done e => .done e
        | .died => .died), (single M (kept M S) (words l) st).1) := by
  unfold app
  rw [parse_again, hw, parse_word decl w ws h]
  simp only [Option.map_some, List.append_nil]
  rw [kept_off M S (by decide +kernel) (by decide +kernel) (by decide +kernel),
    kept_off M S (by decide +kernel) (by decide +kernel) (by decide +kernel),
    kept_off M S (by decide +kernel) (by decide +kernel) (by decide +kernel),
    kept_off M S (by decide +kernel) (by decide +kernel) (by decide +kernel)]
  rw [if_neg (by simp)]
  by_cases hq : w :: ws = [txtQuit]
  · rw [if_pos hq, if_pos (by simpa using hq)]
  · rw [if_neg hq, if_neg (by simpa using hq)]
    unfold single
    by_cases hk : M.known w = true
    · have hk' : M.known ((w :: ws).headD []) = true := hk
      rw [if_pos hk, if_pos hk']
      simp only
      generalize M.exec (kept M S) (w :: ws) st.world = r
      obtain ⟨r1, r2⟩ := r
      cases r2 <;> rfl
    · have hk' : ¬M.known ((w :: ws).headD []) = true := hk
      rw [if_neg hk, if_neg hk']
      cases M.enter (kept M S) st.world <;> rfl

/-- C126 (partial: lines that begin with the name of a command): the shell executes the commands one after the other,
each once and with the directories and the log level of the shell, reports their errors and goes on. -/
theorem C126_session_partial (M : Machine σ) (S : Settings) : ∀ (ins : List In) (st : St σ), (∀ l, .line l ∈ ins → Plain l) →
    ∀ k, ins.length < k → loop M k S ins st = some (session M (kept M S) ins st) := by
  intro ins
  induction ins with
  | nil =>
    intro st _ k hk
    obtain ⟨k, rfl⟩ : ∃ j, k = j + 1 := ⟨k - 1, by simp at hk; omega⟩
    rw [loop, session]
    cases M.active st.world <;> rfl
  | cons i ins ih =>
    intro st hp k hk
    obtain ⟨k, rfl⟩ : ∃ j, k = j + 1 := ⟨k - 1, by simp at hk; omega⟩
    have next : ∀ st', loop M k S ins st' = some (session M (kept M S) ins st') := fun st' =>
      ih st' (fun l hl => hp l (List.mem_cons_of_mem _ hl)) k (by simp at hk; omega)
    rw [loop, session]
    cases M.active st.world with
    | none => rfl
    | some a =>
      simp only []
      generalize St.say st [txtActive ++ (if a = [] then txtNone else a), txtReady] = st0
      cases i with
      | eof => rfl
      | abort => rfl
      | line l =>
        simp only []
        by_cases he : l = []
        · rw [if_pos he, if_pos he]; exact next st0
        · rw [if_neg he, if_neg he]
          rcases hp l (List.mem_cons_self ..) with h | ⟨w, ws, hw, hword⟩
          · exact absurd h he
          · have hwd : Conf.fields 32 l = words l := rfl
            rw [hwd, app_plain M S hw hword st0]
            by_cases hq : words l = [txtQuit]
            · rw [if_pos hq, if_pos hq]
            · rw [if_neg hq, if_neg hq]
              generalize single M (kept M S) (words l) st0 = q
              obtain ⟨st', res⟩ := q
              cases res with
              | died => rfl
              | refused e => exact next _
              | done e =>
                cases e with
                | none =>
                  have : st'.say ((none : Option Bytes).toList) = st' := by simp [St.say]
                  simp only [this]
                  exact next _
                | some x => exact next _

/-- C126: every session ends, whatever is typed: with a fatal error, or when the input is used up or the user leaves. -/
theorem C126_ends (M : Machine σ) : ∀ (k : Nat) (S : Settings) (ins : List In) (st : St σ), ins.length < k →
    ∃ st' ins' e, loop M k S ins st = some (st', ins', e) ∧ ins'.length ≤ ins.length := by
  intro k
  induction k with
  | zero => intro S ins st h; omega
  | succ k ih =>
    intro S ins st hk
    rw [loop]
    cases M.active st.world with
    | none => exact ⟨_, _, _, rfl, Nat.le_refl _⟩
    | some a =>
      simp only []
      generalize St.say st [txtActive ++ (if a = [] then txtNone else a), txtReady] = st0
      cases ins with
      | nil => exact ⟨_, _, _, rfl, Nat.le_refl _⟩
      | cons i ins =>
        simp only [List.length_cons] at hk ⊢
        have next : ∀ S st', ∃ st'' ins' e, loop M k S ins st' = some (st'', ins', e) ∧ ins'.length ≤ ins.length + 1 := by
          intro S st'
          obtain ⟨a, b, c, h1, h2⟩ := ih S ins st' (by omega)
          exact ⟨a, b, c, h1, by omega⟩
        cases i with
        | eof => exact ⟨_, _, _, rfl, by omega⟩
        | abort => exact ⟨_, _, _, rfl, by omega⟩
        | line l =>
          simp only []
          by_cases he : l = []
          · rw [if_pos he]; exact next S st0
          · rw [if_neg he]
            generalize app M (again M S ++ Conf.fields 32 l) st0 = r
            obtain ⟨act, st1⟩ := r
            cases act with
            | refused e => exact next _ _
            | done e => cases e <;> exact next _ _
            | died => exact ⟨_, _, _, rfl, by omega⟩
            | exit => exact ⟨_, _, _, rfl, by omega⟩
            | nested S' =>
              obtain ⟨st2, ins2, e2, h1, h2⟩ := ih S' ins st1 (by omega)
              obtain ⟨a, b, c, h3, h4⟩ := ih S ins2 st2 (by omega)
              simp only [h1]
              cases e2 with
              | died => exact ⟨_, _, _, rfl, by omega⟩
              | quit => exact ⟨a, b, c, h3, by omega⟩
              | closed => exact ⟨a, b, c, h3, by omega⟩

theorem session_ran (M : Machine σ) (S : Settings) : ∀ (ins : List In) (st : St σ),
    ∃ cs : List (List Bytes), (session M S ins st).1.ran = st.ran ++ cs.map fun c => (S, c) := by
  intro ins
  induction ins with
  | nil =>
    intro st
    rw [session]
    refine ⟨[], ?_⟩
    cases M.active st.world <;> simp [St.say]
  | cons i ins ih =>
    intro st
    rw [session]
    cases M.active st.world with
    | none => exact ⟨[], by simp⟩
    | some a =>
      simp only []
      cases i with
      | eof => exact ⟨[], by simp [St.say]⟩
      | abort => exact ⟨[], by simp [St.say]⟩
      | line l =>
        simp only []
        split
        · obtain ⟨cs, h⟩ := ih (st.say [txtActive ++ (if a = [] then txtNone else a), txtReady])
          exact ⟨cs, h⟩
        · split
          · exact ⟨[], by simp [St.say]⟩
          · have hs : ∃ cs : List (List Bytes), (single M S (words l) (st.say [txtActive ++ (if a = [] then txtNone else a), txtReady])).1.ran = st.ran ++ cs.map fun c => (S, c) := by
              unfold single
              split
              · exact ⟨[words l], by simp [St.say]⟩
              · split
                · exact ⟨[], by simp [St.say]⟩
                · exact ⟨[], by simp [St.say]⟩
            obtain ⟨cs, hs⟩ := hs
            generalize single M S (words l) (st.say [txtActive ++ (if a = [] then txtNone else a), txtReady]) = q at hs
            obtain ⟨st', res⟩ := q
            cases res with
            | died => exact ⟨cs, hs⟩
            | refused e =>
              obtain ⟨ds, h⟩ := ih (st'.say [e])
              refine ⟨cs ++ ds, ?_⟩
              simp only at hs ⊢
              rw [h, List.map_append, ← List.append_assoc, ← hs]
              rfl
            | done e =>
              obtain ⟨ds, h⟩ := ih (st'.say e.toList)
              refine ⟨cs ++ ds, ?_⟩
              simp only at hs ⊢
              rw [h, List.map_append, ← List.append_assoc, ← hs]
              rfl

/-- C126 (partial: as above): every command works in the home directory of the shell, logs to its directory and at its
level. -/
theorem C126_options_partial (M : Machine σ) (S : Settings) (ins : List In) (w : σ) (h : ∀ l, .line l ∈ ins → Plain l)
    (k : Nat) (hk : ins.length < k) :
    ∃ st' ins' e, loop M k S ins ⟨w, [], []⟩ = some (st', ins', e) ∧ ∀ p ∈ st'.ran,
      p.1.get txtHomedir M.homedir = S.get txtHomedir M.homedir ∧ p.1.get txtLogdir M.logdir = S.get txtLogdir M.logdir ∧
      p.1.get txtLoglevel M.loglevel = S.get txtLoglevel M.loglevel := by
  refine ⟨_, _, _, C126_session_partial M S ins _ h k hk, ?_⟩
  obtain ⟨cs, hr⟩ := session_ran M (kept M S) ins ⟨w, [], []⟩
  rw [hr, List.nil_append]
  intro p hp
  obtain ⟨c, _, rfl⟩ := List.mem_map.1 hp
  exact kept_get M S

/-- C126, violated: a shell started with `--offline` runs every command without it. -/
theorem C126_offline_violated (M : Machine σ) (S : Settings) (_ : S.on txtOffline = true) (ins : List In) (w : σ)
    (h : ∀ l, .line l ∈ ins → Plain l) (k : Nat) (hk : ins.length < k) :
    ∃ st' ins' e, loop M k S ins ⟨w, [], []⟩ = some (st', ins', e) ∧ ∀ p ∈ st'.ran, p.1.on txtOffline = false := by
  refine ⟨_, _, _, C126_session_partial M S ins _ h k hk, ?_⟩
  obtain ⟨cs, hr⟩ := session_ran M (kept M S) ins ⟨w, [], []⟩
  rw [hr, List.nil_append]
  intro p hp
  obtain ⟨c, _, rfl⟩ := List.mem_map.1 hp
  exact kept_off M S (by decide +kernel) (by decide +kernel) (by decide +kernel)

/-- Without a network: the shell can be entered in offline mode only (ctrlengine.go:204-229, 274-291). The only
command is "b". -/
def noNet : Machine Unit :=
  ⟨fun n => n = [98], fun _ _ _ => ((), .done none), fun S w => if S.on txtOffline then some w else none, fun _ => some [], [], [], [], fun _ => [],
    fun _ => []⟩

/-- C126, violated: without a network a mistyped command ("x") ends the shell that was started with `--offline`; the
command after it is not run. -/
theorem C126_typo_violated :
    noNet.enter [(txtOffline, txtTrue)] () = some () ∧
    (loop noNet 10 [(txtOffline, txtTrue)] [.line [98], .line [120], .line [98]] ⟨(), [], []⟩).map (fun r => (r.1.ran.map (·.2), r.2.2)) =
      some ([[[98]]], .died) := by
  constructor <;> decide +kernel

/-- With a network. -/
def net : Machine Unit := { noNet with enter := fun _ w => some w }

/-- C126, violated: after a line of blanks `quit` does not end the shell; the next command is run. -/
theorem C126_quit_violated :
    (loop net 10 [] [.line [32], .line txtQuit, .line [98]] ⟨(), [], []⟩).map (fun r => (r.1.ran.map (·.2), r.2.2)) = some ([[[98]]], .closed) := by
  decide +kernel

/-- A session with an empty line, an unknown command, a command with an argument and one after `quit`. -/
example : (∀ l, In.line l ∈ [In.line [], .line [120], .line [98, 32, 32, 45, 99], .line txtQuit, .line [98]] → Plain l) ∧
    (loop net 10 [(txtHomedir, [47])] [.line [], .line [120], .line [98, 32, 32, 45, 99], .line txtQuit, .line [98]] ⟨(), [], []⟩).map
      (fun r => (r.1.ran.map (fun p => (p.1.get txtHomedir [], p.2)), r.2.1, r.2.2)) = some ([([47], [[98], [45, 99]])], [.line [98]], .quit) := by
  refine ⟨?_, by decide +kernel⟩
  intro l hl
  simp only [List.mem_cons, List.not_mem_nil, or_false, In.line.injEq] at hl
  rcases hl with rfl | rfl | rfl | rfl | rfl
  · exact .inl rfl
  · exact .inr ⟨[120], [], by decide +kernel, by decide, by decide⟩
  · exact .inr ⟨[98], [[45, 99]], by decide +kernel, by decide, by decide⟩
  · exact .inr ⟨txtQuit, [], by decide +kernel, by decide +kernel, by decide +kernel⟩
  · exact .inr ⟨[98], [], by decide +kernel, by decide, by decide⟩

/-- The options of an offline shell. -/
example : Settings.on [(txtOffline, txtTrue)] txtOffline = true := by decide +kernel

end Verif.Ctrl.Shell

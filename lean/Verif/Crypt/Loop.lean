/-
`mutecrypt` without a command: the loop that reads commands from a file descriptor and runs them
(cryptengine/cryptengine.go:99-152), over every text and every way in which it arrives.

`App.Run` of github.com/urfave/cli v1.20.0 is modelled up to the choice of the command. What a command does is a
parameter. White space is the ASCII one. Lines of the log are left out. Giving both forms of an option (`-h --help`)
is an error in the library and counts as a request for help here.
-/
import Verif.Ctrl.ScanPending
import Verif.Conf.Model
import Verif.Util.Flags

set_option autoImplicit false

namespace Verif.Crypt.Loop
open Verif.Flags
open Verif.Ctrl.Scan (Scanner RErr View newScanner scanN fuel Good good_new dropCR firstLine otherLines firstLine_eq scan_pending pending_new)

def txtHelp : Bytes := "help".toUTF8.data.toList
def txtH : Bytes := "h".toUTF8.data.toList
def txtVersion : Bytes := "version".toUTF8.data.toList
def txtV : Bytes := "v".toUTF8.data.toList
def txtHomedir : Bytes := "homedir".toUTF8.data.toList
def txtKeyserver : Bytes := "keyserver".toUTF8.data.toList
def txtLogconsole : Bytes := "logconsole".toUTF8.data.toList
def txtQuit : Bytes := "quit".toUTF8.data.toList
def txtReady : Bytes := "READY.".toUTF8.data.toList
def txtQuitting : Bytes := "QUITTING".toUTF8.data.toList

/-- The global options (cryptengine.go:155-191; the library adds the ones for help and the version). -/
def decl : Decl := fun n =>
  if n ∈ [txtKeyserver, txtLogconsole, txtHelp, txtH, txtVersion, txtV] then some .bool
  else if n ∈ [txtHomedir, "keyhost".toUTF8.data.toList, "keyport".toUTF8.data.toList, "input-fd".toUTF8.data.toList,
    "output-fd".toUTF8.data.toList, "status-fd".toUTF8.data.toList, "passphrase-fd".toUTF8.data.toList,
    "command-fd".toUTF8.data.toList, "loglevel".toUTF8.data.toList, "logdir".toUTF8.data.toList] then some .str
  else none

/-- What a command does: `app.Run` returns an error (a wrong option, an argument too many, a database that cannot be
opened), the command was run and left an error or none in `ce.err`, or the process ended. -/
inductive Res
  | refused (e : Bytes)
  | done (e : Option Bytes)
  | died
  deriving DecidableEq

/-- The commands: their names (`quit` and `help` included) and what they do with the global options and the words of
a command line; the texts of errors. -/
structure Machine (σ : Type) where
  known : Bytes → Bool
  exec : Settings → List Bytes → σ → σ × Res
  usage : List Bytes → Bytes
  unknown : List Bytes → Bytes
  scanner : Bytes

/-- What the commands work on, the lines written to the status descriptor and the commands that were run with their
global options, oldest first. -/
structure St (σ : Type) where
  world : σ
  status : List Bytes
  ran : List (Settings × List Bytes)

variable {σ : Type}

/-- Write to the status descriptor. -/
def St.say (st : St σ) (ls : List Bytes) : St σ := { st with status := st.status ++ ls }

/-- What a call of `app.Run` comes to. -/
inductive Act
  | refused (e : Bytes)
  | done (e : Option Bytes)
  | died
  /-- `errExit` -/
  | exit
  /-- the action of the application without arguments: another loop -/
  | nested
  deriving DecidableEq

/-- `app.Run` (App.Run of the library, cryptengine.go:99-104, 192-197 and the commands; the engine is prepared). -/
def app (M : Machine σ) (args : List Bytes) (st : St σ) : Act × St σ :=
  match parse decl args with
  | none => (.refused (M.usage args), st)
  | some (S, rest) =>
    if S.on txtHelp ∨ S.on txtH ∨ S.on txtVersion ∨ S.on txtV then (.done none, st)
    else match rest with
      | [] => (.nested, st)
      | name :: more =>
        if name = txtQuit ∧ more = [] then (.exit, st)
        else if M.known name then
          let r := M.exec S (name :: more) st.world
          let st := { st with world := r.1, ran := st.ran ++ [(S, name :: more)] }
          match r.2 with
          | .refused e => (.refused e, st)
          | .done e => (.done e, st)
          | .died => (.died, st)
        else (.done (some (M.unknown (name :: more))), st)

/-- How a loop ends. -/
inductive End
  | quit
  | eof
  | failed
  | died
  deriving DecidableEq

/-- `loop` (cryptengine.go:99-152). The first argument bounds the rounds. A nested loop makes a scanner of its own for
the same file. -/
def loop (M : Machine σ) : Nat → Scanner → St σ → Option (St σ × Scanner × End)
  | 0, _, _ => none
  | k + 1, s, st =>
    match scanN (fuel s) s with
    | none => none
    | some (none, t) => some (st, t, if t.err = some .eof then .eof else .failed)
    | some (some v, t) =>
      if t.view v = [] then loop M k t st
      else
        let a := app M (Conf.fields 32 (t.view v)) st
        match a.1 with
        | .refused e => loop M k t (a.2.say [e])
        | .done none => loop M k t (a.2.say [txtReady])
        | .done (some e) => loop M k t (a.2.say [e, txtReady])
        | .died => some (a.2, t, .died)
        | .exit => some (a.2.say [txtQuitting], t, .quit)
        | .nested =>
          match loop M k (newScanner t.input t.last) a.2 with
          | none => none
          | some (st', u, .died) => some (st', u, .died)
          | some (st', u, .failed) => loop M k { t with input := u.input } (st'.say [M.scanner, txtReady])
          | some (st', u, _) => loop M k { t with input := u.input } (st'.say [txtReady])

/-! ### Specification -/

/-- The lines of a text; the last one may lack its line feed. -/
def lines : Bytes → List Bytes
  | [] => []
  | c :: s =>
    if c = 10 then [] :: lines s
    else match lines s with
      | [] => [[c]]
      | l :: ls => (c :: l) :: ls

/-- The words of a line. -/
def words (l : Bytes) : List Bytes := Conf.fields 32 (dropCR l)

/-- A line that is empty or begins with the name of a command. -/
def Plain (l : Bytes) : Prop := dropCR l = [] ∨ ∃ w ws, words l = w :: ws ∧ Word w

/-- One command given on the command line with the global options `S`: what it does and what is reported. -/
def single (M : Machine σ) (S : Settings) (c : List Bytes) (st : St σ) : St σ × Option Bytes × Res :=
  if M.known (c.headD []) then
    let r := M.exec S c st.world
    ({ st with world := r.1, ran := st.ran ++ [(S, c)] }, (match r.2 with | .refused e => some e | .done e => e | .died => none), r.2)
  else (st, some (M.unknown c), .done (some (M.unknown c)))

/-- The lines of a script are executed one after the other with the global options `S`, until `quit`, a line that is
too long, or the end. Errors are reported; `ready` is written after every command that was run. -/
def script (M : Machine σ) (S : Settings) : List Bytes → St σ → St σ × End
  | [], st => (st, .eof)
  | l :: ls, st =>
    if 65535 < l.length then (st, .failed)
    else if dropCR l = [] then script M S ls st
    else if words l = [txtQuit] then (st.say [txtQuitting], .quit)
    else match single M S (words l) st with
      | (st, _, .died) => (st, .died)
      | (st, e, .refused _) => script M S ls (st.say e.toList)
      | (st, e, .done _) => script M S ls (st.say (e.toList ++ [txtReady]))

/-! ### Proofs -/

theorem lines_cons {P : Bytes} (h : P ≠ []) : lines P = P.takeWhile (· ≠ 10) :: lines (otherLines P) := by
  induction P with
  | nil => exact absurd rfl h
  | cons c s ih =>
    rw [lines]
    by_cases hc : c = 10
    · subst hc
      simp [otherLines]
    · rw [if_neg hc]
      have e1 : (c :: s).takeWhile (· ≠ 10) = c :: s.takeWhile (· ≠ 10) := List.takeWhile_cons_of_pos (by simpa using hc)
      have e2 : otherLines (c :: s) = otherLines s := by
        unfold otherLines
        rw [List.dropWhile_cons_of_pos (by simpa using hc)]
      rw [e1, e2]
      cases s with
      | nil => simp [lines, otherLines]
      | cons d s => rw [ih (by simp)]

theorem app_plain (M : Machine σ) {l : Bytes} {w : Bytes} {ws : List Bytes} (hw : words l = w :: ws) (h : Word w) (st : St σ) :
    app M (words l) st =
      if words l = [txtQuit] then (.exit, st)
      else ((match (single M [] (words l) st).2.2 with
        | .refused e => .refused e
        | .done e => .done e
        | .died => .died), (single M [] (words l) st).1) := by
  unfold app
  rw [hw, parse_word decl w ws h]
  simp only []
  rw [if_neg (by decide +kernel)]
  by_cases hq : w :: ws = [txtQuit]
  · rw [if_pos hq, if_pos (by simpa using hq)]
  · rw [if_neg hq, if_neg (by simpa using hq)]
    unfold single
    by_cases hk : M.known w = true
    · have hk' : M.known ((w :: ws).headD []) = true := hk
      rw [if_pos hk, if_pos hk']
      simp only
      generalize M.exec [] (w :: ws) st.world = r
      obtain ⟨r1, r2⟩ := r
      cases r2 <;> rfl
    · have hk' : ¬M.known ((w :: ws).headD []) = true := hk
      rw [if_neg hk, if_neg hk']

/-- The loop at any point. -/
theorem loop_script (M : Machine σ) : ∀ (k : Nat) (s : Scanner) (st : St σ), Good s → (lines s.pending).length < k →
    (∀ l ∈ lines s.pending, Plain l) →
    ∃ t, loop M k s st = some ((script M [] (lines s.pending) st).1, t, (script M [] (lines s.pending) st).2) := by
  intro k
  induction k with
  | zero => intro s st _ h; omega
  | succ k ih =>
    intro s st hg hk hp
    obtain ⟨r, t, h0, h1, h2, h3⟩ := scan_pending (fuel s) s hg (Nat.le_refl _)
    rw [loop, h0]
    by_cases hP : s.pending = []
    · obtain ⟨rfl, he, _⟩ := h1 hP
      refine ⟨t, ?_⟩
      simp only [hP, lines, script, he, if_true]
    · rw [lines_cons hP] at hk hp ⊢
      by_cases hL : (s.pending.takeWhile (· ≠ 10)).length ≤ 65535
      · obtain ⟨v, rfl, hv, hpend, hgt, _⟩ := h2 hP hL
        simp only []
        rw [hv, firstLine_eq]
        have hpl := hp _ (List.mem_cons_self ..)
        generalize hl : s.pending.takeWhile (· ≠ 10) = l at *
        rw [← hpend] at hk hp ⊢
        have next : ∀ st', ∃ t', loop M k t st' = some ((script M [] (lines t.pending) st').1, t', (script M [] (lines t.pending) st').2) := fun st' =>
          ih t st' hgt (by simp only [List.length_cons] at hk; omega) (fun x hx => hp x (List.mem_cons_of_mem _ hx))
        rw [script, if_neg (show ¬65535 < l.length by omega)]
        by_cases he : dropCR l = []
        · rw [if_pos he, if_pos he]
          exact next st
        · rw [if_neg he, if_neg he]
          rcases hpl with hpl | ⟨w, ws, hw, hword⟩
          · exact absurd hpl he
          · have hwd : Conf.fields 32 (dropCR l) = words l := rfl
            rw [hwd, app_plain M hw hword st]
            by_cases hq : words l = [txtQuit]
            · rw [if_pos hq, if_pos hq]
              exact ⟨t, rfl⟩
            · rw [if_neg hq, if_neg hq]
              have hs : ∀ e', (single M [] (words l) st).2.2 = .refused e' → (single M [] (words l) st).2.1 = some e' := by
                unfold single
                split
                · simp only
                  intro e' he'
                  rw [he']
                · intro e' he'; cases he'
              have hd : ∀ e', (single M [] (words l) st).2.2 = .done e' → (single M [] (words l) st).2.1 = e' := by
                unfold single
                split
                · simp only
                  intro e' he'
                  rw [he']
                · intro e' he'; cases he'; rfl
              generalize single M [] (words l) st = q at hs hd
              obtain ⟨st', e, res⟩ := q
              cases res with
              | died => exact ⟨t, rfl⟩
              | refused e' =>
                have := hs e' rfl
                simp only at this
                subst this
                exact next _
              | done e' =>
                have := hd e' rfl
                simp only at this
                subst this
                cases e with
                | none => exact next _
                | some x => exact next _
      · obtain ⟨rfl, he⟩ := h3 (by omega)
        refine ⟨t, ?_⟩
        rw [script, if_pos (show 65535 < (s.pending.takeWhile (· ≠ 10)).length by omega)]
        simp [he]

/-! ### C125 -/

/-- C125 (partial: lines that begin with the name of a command, and no global options): however the text arrives, its
lines are executed one after the other, each once, and the reports are those of the single commands. -/
theorem C125_script_partial (M : Machine σ) (input : List Bytes) (st : St σ) (h : ∀ l ∈ lines input.flatten, Plain l) (k : Nat)
    (hk : (lines input.flatten).length < k) :
    ∃ t, loop M k (newScanner input .eof) st = some ((script M [] (lines input.flatten) st).1, t, (script M [] (lines input.flatten) st).2) :=
  loop_script M k (newScanner input .eof) st (good_new input) hk h

/-- C125 (partial: as above): the pieces in which the text arrives do not matter. -/
theorem C125_pieces_partial (M : Machine σ) (input input' : List Bytes) (st : St σ) (he : input.flatten = input'.flatten)
    (h : ∀ l ∈ lines input.flatten, Plain l) (k : Nat) (hk : (lines input.flatten).length < k) :
    ∃ (r : St σ × End) (t t' : Scanner), loop M k (newScanner input .eof) st = some (r.1, t, r.2) ∧ loop M k (newScanner input' .eof) st = some (r.1, t', r.2) := by
  obtain ⟨t, h1⟩ := C125_script_partial M input st h k hk
  obtain ⟨t', h2⟩ := C125_script_partial M input' st (he ▸ h) k (he ▸ hk)
  rw [← he] at h2
  exact ⟨script M [] (lines input.flatten) st, t, t', h1, h2⟩

/-- The commands of a script: the words of its lines up to `quit`. -/
def commands : List Bytes → List (List Bytes)
  | [] => []
  | l :: ls => if dropCR l = [] then commands ls else if words l = [txtQuit] then [] else words l :: commands ls

/-- A machine whose commands end and accept their options. -/
structure Calm (M : Machine σ) : Prop where
  exec : ∀ S c w, ∃ e, (M.exec S c w).2 = .done e ∧ e ≠ some txtReady
  unknown : ∀ c, M.unknown c ≠ txtReady

theorem script_calm (M : Machine σ) (hM : Calm M) (S : Settings) : ∀ (ls : List Bytes) (st : St σ), (∀ l ∈ ls, l.length ≤ 65535) →
    (script M S ls st).1.ran = st.ran ++ ((commands ls).filter fun c => M.known (c.headD [])).map (fun c => (S, c)) ∧
    (script M S ls st).1.status.count txtReady = st.status.count txtReady + (commands ls).length := by
  intro ls
  induction ls with
  | nil => intro st _; simp [script, commands]
  | cons l ls ih =>
    intro st hl
    have hlen := hl l (List.mem_cons_self ..)
    have hrest := fun st' => ih st' (fun x hx => hl x (List.mem_cons_of_mem _ hx))
    rw [script, commands, if_neg (show ¬65535 < l.length by omega)]
    by_cases he : dropCR l = []
    · rw [if_pos he, if_pos he]; exact hrest st
    · rw [if_neg he, if_neg he]
      by_cases hq : words l = [txtQuit]
      · rw [if_pos hq, if_pos hq]
        simp only [St.say, List.filter_nil, List.map_nil, List.append_nil, List.length_nil, Nat.add_zero, List.count_append, true_and]
        have : List.count txtReady [txtQuitting] = 0 := by decide +kernel
        omega
      · rw [if_neg hq, if_neg hq]
        unfold single
        by_cases hk : M.known ((words l).headD []) = true
        · rw [if_pos hk]
          obtain ⟨e, he1, he2⟩ := hM.exec S (words l) st.world
          simp only [he1]
          obtain ⟨r1, r2⟩ := hrest (St.say { st with world := (M.exec S (words l) st.world).1, ran := st.ran ++ [(S, words l)] } (e.toList ++ [txtReady]))
          rw [r1, r2]
          have hc : List.count txtReady (e.toList ++ [txtReady]) = 1 := by
            cases e with
            | none => simp
            | some x =>
              simp only [Option.toList_some, List.singleton_append, List.count_cons_self, List.count_nil, List.count_cons]
              rw [if_neg (by simp only [beq_iff_eq]; rintro rfl; exact he2 rfl)]
          constructor
          · simp only [St.say, List.filter_cons, hk, if_true, List.map_cons, List.append_assoc, List.singleton_append]
          · simp only [St.say, List.count_append, List.length_cons] at hc ⊢
            omega
        · rw [if_neg hk]
          simp only []
          obtain ⟨r1, r2⟩ := hrest (st.say ((some (M.unknown (words l))).toList ++ [txtReady]))
          rw [r1, r2]
          have hc : List.count txtReady ((some (M.unknown (words l))).toList ++ [txtReady]) = 1 := by
            simp only [Option.toList_some, List.singleton_append, List.count_cons_self, List.count_nil, List.count_cons]
            rw [if_neg (by simp only [beq_iff_eq]; exact hM.unknown _)]
          constructor
          · simp only [St.say, List.filter_cons, hk, Bool.false_eq_true, if_false]
          · simp only [St.say, List.count_append, List.length_cons] at hc ⊢
            omega

/-- C125 (partial: as above, and the options of every command are accepted): every command up to `quit` is run once, in
the order of the script, and is answered by one line READY. -/
theorem C125_answers_partial (M : Machine σ) (hM : Calm M) (input : List Bytes) (w : σ) (h : ∀ l ∈ lines input.flatten, Plain l)
    (hl : ∀ l ∈ lines input.flatten, l.length ≤ 65535) (k : Nat) (hk : (lines input.flatten).length < k) :
    ∃ st t e, loop M k (newScanner input .eof) ⟨w, [], []⟩ = some (st, t, e) ∧
      st.ran.map (·.2) = (commands (lines input.flatten)).filter (fun c => M.known (c.headD [])) ∧
      st.status.count txtReady = (commands (lines input.flatten)).length := by
  obtain ⟨t, h1⟩ := C125_script_partial M input ⟨w, [], []⟩ h k hk
  obtain ⟨h2, h3⟩ := script_calm M hM [] _ ⟨w, [], []⟩ hl
  refine ⟨_, t, _, h1, ?_, ?_⟩
  · rw [h2, List.nil_append, List.map_map]
    exact List.map_id' _
  · rw [h3]; simp

/-- C125, violated: a command whose options are refused is not answered by READY; who waits for it waits forever. -/
theorem C125_refused_violated (M : Machine σ) (l e : Bytes) (w : σ) (hn : 10 ∉ l) (hl : l.length ≤ 65535) (c : Bytes) (cs : List Bytes)
    (hw : words l = c :: cs) (hc : Word c) (hq : c :: cs ≠ [txtQuit]) (hne : dropCR l ≠ []) (hk : M.known c = true)
    (he : (M.exec [] (c :: cs) w).2 = .refused e) :
    ∃ st t, loop M 2 (newScanner [l ++ [10]] .eof) ⟨w, [], []⟩ = some (st, t, .eof) ∧ st.status = [e] := by
  have hlines : lines [l ++ [10]].flatten = [l] := by
    rw [lines_cons (by simp)]
    have hp : ∀ x ∈ l, decide (x ≠ 10) = true := by
      intro x hx
      rw [decide_eq_true_eq]
      rintro rfl
      exact hn hx
    simp only [List.flatten_cons, List.flatten_nil, List.append_nil]
    rw [List.takeWhile_append_of_pos hp]
    unfold otherLines
    rw [List.dropWhile_append_of_pos hp]
    simp [lines]
  obtain ⟨t, h⟩ := C125_script_partial M [l ++ [10]] ⟨w, [], []⟩ (by
    rw [hlines]
    intro x hx
    rw [List.mem_singleton] at hx
    subst hx
    exact .inr ⟨c, cs, hw, hc⟩) 2 (by rw [hlines]; exact Nat.lt_succ_self 1)
  rw [hlines, script, if_neg (show ¬65535 < l.length by omega), if_neg hne, hw, if_neg hq, single, if_pos (show M.known ((c :: cs).headD []) = true from hk)] at h
  simp only [he, script] at h
  exact ⟨_, t, h, rfl⟩

/-- A machine that only records what it runs. -/
def recorder : Machine Unit := ⟨fun _ => true, fun _ _ _ => ((), .done none), fun _ => [], fun _ => [], []⟩

/-- C125, violated: after a line of blanks the commands are not run in the order of the text, and which order it is
depends on the pieces in which the text arrives. The text is " ", "b", "c". -/
theorem C125_order_violated :
    (loop recorder 10 (newScanner [[32, 10, 98, 10], [99, 10]] .eof) ⟨(), [], []⟩).map (fun r => r.1.ran.map (·.2)) = some [[[99]], [[98]]] ∧
    (loop recorder 10 (newScanner [[32, 10], [98, 10], [99, 10]] .eof) ⟨(), [], []⟩).map (fun r => r.1.ran.map (·.2)) = some [[[98]], [[99]]] := by
  constructor <;> decide +kernel

/-- C125, violated: after a line of blanks `quit` does not end the program. The text is " ", "quit", "b". -/
theorem C125_quit_violated :
    (loop recorder 10 (newScanner [[32, 10], txtQuit ++ [10], [98, 10]] .eof) ⟨(), [], []⟩).map (fun r => (r.1.ran.map (·.2), r.1.status, r.2.2)) =
      some ([[[98]]], [txtQuitting, txtReady, txtReady], .eof) := by
  decide +kernel

def txtDb : Bytes := "db".toUTF8.data.toList
def txtCreate : Bytes := "create".toUTF8.data.toList

/-- `db create` in the directory of the context (cryptengine.go:225-228): the directories with a database. -/
def creator (dflt : Bytes) : Machine (List Bytes) :=
  ⟨fun n => n = txtDb, fun S c w => if c = [txtDb, txtCreate] then (w ++ [S.get txtHomedir dflt], .done none) else (w, .done none),
    fun _ => [], fun _ => [], []⟩

/-- C125, violated: the global options given to the program are not those of the commands it reads. `mutecrypt
--homedir H db create` makes the database in `H`, the command `db create` read by `mutecrypt --homedir H` in the
default directory. -/
theorem C125_homedir_violated (dflt H : Bytes) :
    (single (creator dflt) [(txtHomedir, H)] [txtDb, txtCreate] ⟨[], [], []⟩).1.world = [H] ∧
    ∃ st t, loop (creator dflt) 2 (newScanner [txtDb ++ [32] ++ txtCreate ++ [10]] .eof) ⟨[], [], []⟩ = some (st, t, .eof) ∧ st.world = [dflt] := by
  have hlines : lines [txtDb ++ [32] ++ txtCreate ++ [10]].flatten = [txtDb ++ [32] ++ txtCreate] := by decide +kernel
  have hw : words (txtDb ++ [32] ++ txtCreate) = [txtDb, txtCreate] := by decide +kernel
  constructor
  · simp [single, creator, Settings.get]
  · obtain ⟨t, h⟩ := C125_script_partial (creator dflt) [txtDb ++ [32] ++ txtCreate ++ [10]] ⟨[], [], []⟩ (by
      rw [hlines]
      intro x hx
      rw [List.mem_singleton] at hx
      subst hx
      exact .inr ⟨txtDb, [txtCreate], hw, by decide +kernel, by decide +kernel⟩) 2 (by rw [hlines]; decide)
    rw [hlines, script, if_neg (by decide +kernel), if_neg (by decide +kernel), hw, if_neg (by decide +kernel)] at h
    simp only [single, creator, List.headD_cons, decide_true, if_true, script] at h
    exact ⟨_, t, h, by simp [St.say, Settings.get]⟩

/-- The words `--name value` of some options. -/
def written : List (Bytes × Bytes) → List Bytes
  | [] => []
  | (n, v) :: ps => (45 :: 45 :: n) :: v :: written ps

theorem parse_written (ps : List (Bytes × Bytes)) (hps : ∀ p ∈ ps, Name p.1 ∧ decl p.1 = some .str) (ws : List Bytes) (r : List Bytes)
    (hr : parse decl ws = some ([], r)) : parse decl (written ps ++ ws) = some (ps, r) := by
  induction ps with
  | nil => exact hr
  | cons p ps ih =>
    obtain ⟨n, v⟩ := p
    obtain ⟨h1, h2⟩ := hps (n, v) (.head _)
    show parse decl ((45 :: 45 :: n) :: v :: (written ps ++ ws)) = _
    rw [parse_pair decl n v _ h1 h2, ih fun q hq => hps q (.tail _ hq)]
    rfl

/-- **C125** Options written in front of a command, and only they, are what the command is run with; the words after
them, or after `--`, are the words of the command. -/
theorem C125_options (M : Machine σ) (ps : List (Bytes × Bytes)) (hps : ∀ p ∈ ps, Name p.1 ∧ decl p.1 = some .str)
    (w : Bytes) (ws : List Bytes) (hk : M.known w = true) (hq : w :: ws ≠ [txtQuit]) (st : St σ) (args : List Bytes)
    (ha : (args = written ps ++ w :: ws ∧ Word w) ∨ args = written ps ++ [45, 45] :: w :: ws) :
    (app M args st).2 = { st with world := (M.exec ps (w :: ws) st.world).1, ran := st.ran ++ [(ps, w :: ws)] } ∧
    (app M args st).1 = match (M.exec ps (w :: ws) st.world).2 with
      | .refused e => .refused e
      | .done e => .done e
      | .died => .died := by
  have hp : parse decl args = some (ps, w :: ws) := by
    rcases ha with ⟨rfl, hw⟩ | rfl
    · exact parse_written ps hps _ _ (parse_word decl w ws hw)
    · refine parse_written ps hps _ _ ?_
      rw [parse, if_neg (by decide), if_pos rfl]
  have hoff : ∀ n, decl n = some .bool → Settings.on ps n = false := by
    intro n hn
    unfold Settings.on
    have : ps.reverse.find? (fun p => decide (p.1 = n)) = none := by
      rw [List.find?_eq_none]
      intro p hp hc
      have := (hps p (List.mem_reverse.mp hp)).2
      rw [of_decide_eq_true hc, hn] at this
      cases this
    rw [this]
    rfl
  unfold app
  rw [hp]
  simp only []
  rw [if_neg (by
    rw [hoff txtHelp (by decide +kernel), hoff txtH (by decide +kernel), hoff txtVersion (by decide +kernel), hoff txtV (by decide +kernel)]
    simp), if_neg (fun h => hq (by rw [h.1, h.2])), if_pos hk]
  generalize M.exec ps (w :: ws) st.world = r
  obtain ⟨r1, r2⟩ := r
  cases r2 <;> exact ⟨rfl, rfl⟩

/-- `--homedir x db create`. -/
example : (app (creator [7]) (written [(txtHomedir, [120])] ++ [txtDb, txtCreate]) ⟨[], [], []⟩).2.world = [[120]] ∧
    Name txtHomedir ∧ decl txtHomedir = some .str ∧ Word txtDb :=
  ⟨by decide +kernel, ⟨by decide +kernel, by decide +kernel, by decide +kernel⟩, by decide +kernel, ⟨by decide +kernel, by decide +kernel⟩⟩

/-- A script with an empty line, an unknown command and one after `quit`; it meets the hypotheses. -/
example : (∀ l ∈ lines [97, 32, 98, 13, 10, 10, 113, 117, 105, 116, 10, 99], Plain l) ∧
    commands (lines [97, 32, 98, 13, 10, 10, 113, 117, 105, 116, 10, 99]) = [[[97], [98]]] ∧ Calm recorder := by
  refine ⟨?_, by decide +kernel, ⟨fun _ _ _ => ⟨none, rfl, by simp⟩, fun _ => (by decide +kernel : ([] : Bytes) ≠ txtReady)⟩⟩
  have : lines [97, 32, 98, 13, 10, 10, 113, 117, 105, 116, 10, 99] = [[97, 32, 98, 13], [], [113, 117, 105, 116], [99]] := by decide +kernel
  rw [this]
  intro l hl
  simp only [List.mem_cons, List.not_mem_nil, or_false] at hl
  rcases hl with rfl | rfl | rfl | rfl
  · exact .inr ⟨[97], [[98]], by decide +kernel, by decide, by decide⟩
  · exact .inl rfl
  · exact .inr ⟨[113, 117, 105, 116], [], by decide +kernel, by decide, by decide⟩
  · exact .inr ⟨[99], [], by decide +kernel, by decide, by decide⟩

end Verif.Crypt.Loop

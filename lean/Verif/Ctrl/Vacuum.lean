/-
C140: maintenance of the databases (encdb/encdb.go, ctrlengine/db.go, cryptengine/db.go).

A database is its contents, its unused pages and the `auto_vacuum` mode; what SQLite does with `VACUUM` and the pragmas is taken from its
documentation, and every statement may fail. The call of `mutecrypt` goes through the command line of `Verif.Ctrl.Calls`.
-/
import Verif.Ctrl.Calls

set_option autoImplicit false

namespace Verif.Ctrl.Vacuum
open Verif.Flags
open Verif.Ctrl.Transfer (decInt)
open Verif.Ctrl.Calls

/-- A database: its contents, the pages that are not used, the `auto_vacuum` mode (SQLite's are 0, 1 and 2) and the mode that was set and becomes effective
with the next `VACUUM`. -/
structure Base (α : Type) where
  data : α
  free : Nat
  mode : Nat
  asked : Option Nat
  deriving DecidableEq, Repr

/-- What SQLite does with the statements: whether reading the mode, setting it and `VACUUM` succeed. -/
structure Sqlite where
  read : Bool
  set : Bool
  vacuum : Bool
  deriving DecidableEq, Repr

def tNONE : Bytes := "NONE".toUTF8.data.toList
def tFULL : Bytes := "FULL".toUTF8.data.toList
def tINCREMENTAL : Bytes := "INCREMENTAL".toUTF8.data.toList

/-- `autoVacuumModes` (encdb.go:191-195). -/
def modes : List Bytes := [tNONE, tFULL, tINCREMENTAL]

variable {α β : Type}

/-- `PRAGMA auto_vacuum = m`: SQLite changes between 1 and 2 at once and otherwise with the next `VACUUM`. -/
def setMode (m : Nat) (b : Base α) : Base α :=
  if b.mode ≠ 0 ∧ m ≠ 0 then { b with mode := m, asked := none } else { b with asked := some m }

/-- `VACUUM`. -/
def rebuild (b : Base α) : Base α := { b with free := 0, mode := b.asked.getD b.mode, asked := none }

/-- `encdb.Vacuum` (encdb.go:215-238), behind `msgDB.Vacuum` (msgdb.go:546-548) and `keyDB.Vacuum` (keydb.go:385-387). -/
def vacuum (q : Sqlite) (mode : Bytes) (b : Base α) : Base α × Bool :=
  if mode ≠ [] then
    match modes.findIdx? (· = mode) with
    | none => (b, false)
    | some m =>
      if q.read = false then (b, false)
      else if modes[b.mode]? = some mode then if q.vacuum then (rebuild b, true) else (b, false)
      else if q.set = false then (b, false)
      else if q.vacuum then (rebuild (setMode m b), true) else (setMode m b, false)
  else if q.vacuum then (rebuild b, true) else (b, false)

/-- `encdb.Status` (encdb.go:198-211), behind `msgDB.Status` and `keyDB.Status`: the mode and the number of unused pages. -/
def status (q : Sqlite) (b : Base α) : Option (Bytes × Nat) :=
  if q.read then (modes[b.mode]?).map fun m => (m, b.free) else none

/-- `encdb.Incremental` (encdb.go:243-257): SQLite removes up to `pages` unused pages, and all of them if `pages` is less than 1. -/
def incremental (q : Sqlite) (pages : Int) (b : Base α) : Base α × Bool :=
  if q.read = false then (b, false)
  else if modes[b.mode]? ≠ some tINCREMENTAL then (b, false)
  else if q.set = false then (b, false)
  else ({ b with free := if pages < 1 then 0 else b.free - pages.toNat }, true)

/-- The arguments of `mutecryptDBVacuum` (db.go:338-370). -/
def vacuumArgv (G : Globals) (mode : Bytes) : List Bytes :=
  shared G ++ [tDb, tVacuum] ++ (if mode = [] then [] else opt tAutoVacuum mode)

/-- The arguments of `mutecryptDBStatus` (db.go:296-322) and `mutecryptDBIncremental` (db.go:382-414), which no command calls
(ctrlengine.go:587-606, 630-652). -/
def statusArgv (G : Globals) : List Bytes := shared G ++ [tDb, tStatus]
def incrementalArgv (G : Globals) (pages : Int) : List Bytes :=
  shared G ++ [tDb, tIncremental] ++ (if pages = 0 then [] else opt tPages (decInt pages))

/-- `mutecrypt` with the key database: `db vacuum` (cryptengine.go:293-295, db.go:101-103). `opened`: the database could be opened. -/
def cryptVacuum (D : Defaults) (q : Sqlite) (opened : Bool) (args : List Bytes) (keys : Base β) : Base β × Bool :=
  match perform D mutecrypt cryptJob args with
  | some w => if w.job = .dbVacuum ∧ opened = true then vacuum q tFULL keys else (keys, false)
  | none => (keys, false)

/-- `dbVacuum` (db.go:372-380): the message database, then the key database. -/
def dbVacuum (D : Defaults) (G : Globals) (q r : Sqlite) (opened : Bool) (mode : Bytes) (w : Base α × Base β) : (Base α × Base β) × Bool :=
  match vacuum q mode w.1 with
  | (m, false) => ((m, w.2), false)
  | (m, true) => ((m, (cryptVacuum D r opened (vacuumArgv G mode) w.2).1), (cryptVacuum D r opened (vacuumArgv G mode) w.2).2)

/-- The command `mutectrl db vacuum` (ctrlengine.go:625-627). -/
def vacuumCommand (D : Defaults) (G : Globals) (q r : Sqlite) (opened : Bool) (w : Base α × Base β) : (Base α × Base β) × Bool :=
  dbVacuum D G q r opened tFULL w

/-! ### specification -/

/-- The database is as small as it can be and in a mode. -/
structure Compact (b : Base α) (mode : Bytes) : Prop where
  free : b.free = 0
  mode : modes[b.mode]? = some mode
  asked : b.asked = none

/-! ### proofs -/

theorem find_mode {mode : Bytes} {m : Nat} (h : modes.findIdx? (· = mode) = some m) : m < 3 ∧ modes[m]? = some mode := by
  rw [List.findIdx?_eq_some_iff_getElem] at h
  obtain ⟨hl, h1, -⟩ := h
  refine ⟨hl, ?_⟩
  rw [List.getElem?_eq_getElem hl]
  exact congrArg some (of_decide_eq_true h1)

theorem rebuild_set (m : Nat) (b : Base α) : (rebuild (setMode m b)).mode = m ∧ (rebuild (setMode m b)).free = 0 ∧ (rebuild (setMode m b)).asked = none := by
  unfold setMode
  split <;> exact ⟨rfl, rfl, rfl⟩

theorem setMode_data (m : Nat) (b : Base α) : (setMode m b).data = b.data := by
  unfold setMode
  split <;> rfl

/-- Whatever fails and whatever the mode: the contents of a database stay as they are. -/
theorem C140_contents (q : Sqlite) (mode : Bytes) (pages : Int) (b : Base α) :
    (vacuum q mode b).1.data = b.data ∧ (incremental q pages b).1.data = b.data := by
  constructor
  · unfold vacuum
    split
    · split
      · rfl
      · split
        · rfl
        · split
          · split <;> rfl
          · split
            · rfl
            · split
              · exact setMode_data _ _
              · exact setMode_data _ _
    · split <;> rfl
  · unfold incremental
    split
    · rfl
    · split
      · rfl
      · split <;> rfl

/-- Nothing is lost by `db vacuum`, in either database. -/
theorem C140_command_contents {β : Type} (D : Defaults) (G : Globals) (q r : Sqlite) (opened : Bool) (mode : Bytes) (w : Base α × Base β) :
    (dbVacuum D G q r opened mode w).1.1.data = w.1.data ∧ (dbVacuum D G q r opened mode w).1.2.data = w.2.data := by
  have h1 := (C140_contents q mode 0 w.1).1
  have h2 : (cryptVacuum D r opened (vacuumArgv G mode) w.2).1.data = w.2.data := by
    unfold cryptVacuum
    split
    · split
      · exact (C140_contents r tFULL 0 w.2).1
      · rfl
    · rfl
  unfold dbVacuum
  cases hv : vacuum q mode w.1 with
  | mk m ok =>
    rw [hv] at h1
    cases ok with
    | false => exact ⟨h1, rfl⟩
    | true => exact ⟨h1, h2⟩

/-- A vacuum that reports success leaves no unused page and the mode that was asked for; without a mode the one that was there (or asked for
before) stays. -/
theorem C140_compact (q : Sqlite) (mode : Bytes) (b : Base α) (h : (vacuum q mode b).2 = true) :
    (mode ≠ [] → (b.asked = none ∨ modes[b.mode]? ≠ some mode) → Compact (vacuum q mode b).1 mode) ∧
    (mode = [] → (vacuum q mode b).1 = ⟨b.data, 0, b.asked.getD b.mode, none⟩) := by
  constructor
  · intro hm ha
    unfold vacuum at h ⊢
    rw [if_pos hm] at h ⊢
    cases hf : modes.findIdx? (· = mode) with
    | none => rw [hf] at h; cases h
    | some m =>
      rw [hf] at h
      dsimp only at h ⊢
      by_cases h1 : q.read = false
      · rw [if_pos h1] at h; cases h
      · rw [if_neg h1] at h ⊢
        by_cases h2 : modes[b.mode]? = some mode
        · rw [if_pos h2] at h ⊢
          by_cases h3 : q.vacuum = true
          · rw [if_pos h3]
            refine ⟨rfl, ?_, rfl⟩
            rcases ha with ha | ha
            · show modes[(b.asked.getD b.mode)]? = _
              rw [ha]
              exact h2
            · exact absurd h2 ha
          · rw [if_neg h3] at h; cases h
        · rw [if_neg h2] at h ⊢
          by_cases h4 : q.set = false
          · rw [if_pos h4] at h; cases h
          · rw [if_neg h4] at h ⊢
            by_cases h3 : q.vacuum = true
            · rw [if_pos h3]
              obtain ⟨r1, r2, r3⟩ := rebuild_set m b
              exact ⟨r2, by rw [r1]; exact (find_mode hf).2, r3⟩
            · rw [if_neg h3] at h; cases h
  · intro hm
    unfold vacuum at h ⊢
    rw [if_neg (fun hn => hn hm)] at h ⊢
    by_cases h3 : q.vacuum = true
    · rw [if_pos h3]; rfl
    · rw [if_neg h3] at h; cases h

/-- If no statement fails, a vacuum fails only for a mode that does not exist; nothing is changed then. -/
theorem C140_modes (mode : Bytes) (b : Base α) :
    ((vacuum ⟨true, true, true⟩ mode b).2 = true ↔ mode = [] ∨ mode ∈ [tNONE, tFULL, tINCREMENTAL]) ∧
    ((vacuum ⟨true, true, true⟩ mode b).2 = false → (vacuum ⟨true, true, true⟩ mode b).1 = b) := by
  have hmem : modes.findIdx? (· = mode) = none ↔ mode ∉ [tNONE, tFULL, tINCREMENTAL] := by
    rw [List.findIdx?_eq_none_iff]
    constructor
    · intro h hm
      have := h mode hm
      exact absurd (decide_eq_true rfl) (by rw [this]; simp)
    · intro h x hx
      exact decide_eq_false fun e => h (e ▸ hx)
  unfold vacuum
  by_cases hm : mode = []
  · rw [if_neg (fun hn => hn hm), if_pos rfl]
    exact ⟨⟨fun _ => .inl hm, fun _ => rfl⟩, (fun h => nomatch h)⟩
  · rw [if_pos hm]
    cases hf : modes.findIdx? (· = mode) with
    | none =>
      refine ⟨⟨(fun h => nomatch h), ?_⟩, fun _ => rfl⟩
      rintro (h | h)
      · exact absurd h hm
      · exact absurd h (hmem.1 hf)
    | some m =>
      have hin : mode ∈ [tNONE, tFULL, tINCREMENTAL] := by
        refine Classical.byContradiction fun hn => ?_
        rw [hmem.2 hn] at hf
        cases hf
      dsimp only
      rw [if_neg (by decide)]
      split
      · exact ⟨⟨fun _ => .inr hin, fun _ => rfl⟩, (fun h => nomatch h)⟩
      · rw [if_neg (by decide)]
        exact ⟨⟨fun _ => .inr hin, fun _ => rfl⟩, (fun h => nomatch h)⟩

/-- Incremental vacuum: it works in the mode INCREMENTAL only, removes the number of pages asked for (all of them for 0) and leaves the mode. -/
theorem C140_incremental (q : Sqlite) (pages : Int) (b : Base α) :
    ((incremental q pages b).2 = false → (incremental q pages b).1 = b) ∧
    ((incremental q pages b).2 = true → modes[b.mode]? = some tINCREMENTAL ∧ (incremental q pages b).1.mode = b.mode ∧
      (pages ≤ 0 → (incremental q pages b).1.free = 0) ∧ (0 < pages → (incremental q pages b).1.free = b.free - pages.toNat)) := by
  unfold incremental
  split
  · exact ⟨fun _ => rfl, (fun h => nomatch h)⟩
  · split
    · exact ⟨fun _ => rfl, (fun h => nomatch h)⟩
    · rename_i hm
      split
      · exact ⟨fun _ => rfl, (fun h => nomatch h)⟩
      · refine ⟨(fun h => nomatch h), fun _ => ⟨Classical.byContradiction fun hn => hm hn, rfl, ?_, ?_⟩⟩
        · intro hp
          exact if_pos (by omega)
        · intro hp
          exact if_neg (by omega)

/-- The status after a vacuum: the mode that was asked for and no unused page. -/
theorem C140_status (q r : Sqlite) (mode : Bytes) (b : Base α) (hm : mode ≠ []) (ha : b.asked = none) (h : (vacuum q mode b).2 = true) (hr : r.read = true) :
    status r (vacuum q mode b).1 = some (mode, 0) := by
  obtain ⟨h1, h2, -⟩ := (C140_compact q mode b h).1 hm (.inl ha)
  unfold status
  rw [if_pos hr, h2, h1]
  rfl

/-- `mutecrypt db vacuum` without an option for the mode compacts the key database in the mode FULL. -/
theorem C140_key_database {β : Type} (D : Defaults) (G : Globals) (keys : Base β) (ha : keys.asked = none) :
    (cryptVacuum D ⟨true, true, true⟩ true (vacuumArgv G []) keys).2 = true ∧
    Compact (cryptVacuum D ⟨true, true, true⟩ true (vacuumArgv G []) keys).1 tFULL := by
  have hp : perform D mutecrypt cryptJob (vacuumArgv G []) = some ⟨G.homedir, G.loglevel, G.logdir, false, false, [], [], ⟨0, 1, 2, 3, 4⟩, .dbVacuum⟩ :=
    perform_found (understand_line mutecrypt (gShared G) [] [tDb, tVacuum] (by closed) (no_ints _ rfl)) (found_shared G) rfl
  have hv : (vacuum ⟨true, true, true⟩ tFULL keys).2 = true := by
    unfold vacuum
    rw [if_pos (by decide +kernel)]
    cases hf : modes.findIdx? (· = tFULL) with
    | none => exact absurd hf (by decide +kernel)
    | some m =>
      dsimp only
      rw [if_neg (by decide)]
      split
      · rfl
      · rfl
  unfold cryptVacuum
  rw [hp]
  dsimp only
  rw [if_pos ⟨rfl, rfl⟩]
  exact ⟨hv, (C140_compact _ tFULL keys hv).1 (by decide +kernel) (.inl ha)⟩

theorem refused (D : Defaults) (G : Globals) (a b : Bytes) (more : List Bytes) (h : ∀ S, command mutecrypt S (a :: b :: more) = .refused) (hw : Word a) :
    perform D mutecrypt cryptJob (shared G ++ a :: b :: more) = none := by
  have hf := flagParse_write true mutecrypt.global (gShared G) (by closed) (no_ints _ (by closed)) (a :: b :: more) (.inr ⟨a, _, rfl, hw⟩)
  have hh := no_help true mutecrypt.global (gShared G) (by closed)
  unfold perform understand
  rw [show shared G ++ a :: b :: more = write (gShared G) ++ a :: b :: more from rfl, hf]
  dsimp only
  rw [hh, if_neg (by simp), h]

theorem command_group (S : Settings) (b : Bytes) (more : List Bytes) (hw : Word b) : command mutecrypt S (tDb :: b :: more) =
    match mutecrypt.commands.lookup [tDb, b] with
    | none => .refused
    | some c => leaf S [tDb, b] c more := by
  have hf : flagParse false [] (b :: more) = some ([], b :: more) :=
    flagParse_write false [] [] rfl (fun _ h => absurd h List.not_mem_nil) _ (.inr ⟨b, _, rfl, hw⟩)
  rw [command]
  rw [show mutecrypt.commands.lookup [tDb] = none by decide +kernel]
  dsimp only
  rw [if_pos (by decide +kernel), hf]
  dsimp only
  rw [show asksHelp [] = false from rfl, if_neg (by simp)]
  all_goals (cases mutecrypt.commands.lookup [tDb, b] <;> rfl)

theorem refused_vacuum (D : Defaults) (G : Globals) : perform D mutecrypt cryptJob (vacuumArgv G tFULL) = none := by
  refine refused D G tDb tVacuum [45 :: 45 :: tAutoVacuum, tFULL] (fun S => ?_) ⟨by decide +kernel, by decide +kernel⟩
  rw [command_group S tVacuum _ ⟨by decide +kernel, by decide +kernel⟩]
  rw [show mutecrypt.commands.lookup [tDb, tVacuum] = some ⟨[], []⟩ by decide +kernel]
  dsimp only
  unfold leaf
  rw [show flagParse false [] (reorder [45 :: 45 :: tAutoVacuum, tFULL]) = none by decide +kernel]

/-- C140, violated: `mutectrl db vacuum` passes an option on that `mutecrypt` does not have. The command always fails, although the message database
was rebuilt, and the key database is never compacted. -/
theorem C140_command_violated {β : Type} (D : Defaults) (G : Globals) (r : Sqlite) (opened : Bool) (w : Base α × Base β) (h : w.1.asked = none) :
    (∀ q, (vacuumCommand D G q r opened w).2 = false ∧ (vacuumCommand D G q r opened w).1.2 = w.2) ∧
    Compact (vacuumCommand D G ⟨true, true, true⟩ r opened w).1.1 tFULL := by
  have hc : ∀ k : Base β, cryptVacuum D r opened (vacuumArgv G tFULL) k = (k, false) := by
    intro k
    unfold cryptVacuum
    rw [refused_vacuum]
  constructor
  · intro q
    unfold vacuumCommand dbVacuum
    cases hv : vacuum q tFULL w.1 with
    | mk m ok =>
      cases ok with
      | false => exact ⟨rfl, rfl⟩
      | true => dsimp only; rw [hc]; exact ⟨rfl, rfl⟩
  · have hv : (vacuum ⟨true, true, true⟩ tFULL w.1).2 = true := by
      unfold vacuum
      rw [if_pos (by decide +kernel)]
      cases hf : modes.findIdx? (· = tFULL) with
      | none => exact absurd hf (by decide +kernel)
      | some m =>
        dsimp only
        rw [if_neg (by decide)]
        split <;> rfl
    have hk := (C140_compact _ tFULL w.1 hv).1 (by decide +kernel) (.inl h)
    unfold vacuumCommand dbVacuum
    cases he : vacuum ⟨true, true, true⟩ tFULL w.1 with
    | mk m ok =>
      rw [he] at hv hk
      cases ok with
      | false => cases hv
      | true => exact hk

/-- C140, violated: the engine can ask for the status of the key database and for an incremental vacuum of it, but `mutecrypt` has neither command. -/
theorem C140_commands_missing_violated (D : Defaults) (G : Globals) (pages : Int) :
    perform D mutecrypt cryptJob (statusArgv G) = none ∧ perform D mutecrypt cryptJob (incrementalArgv G pages) = none := by
  constructor
  · exact refused D G tDb tStatus [] (fun S => by
      rw [command_group S tStatus _ ⟨by decide +kernel, by decide +kernel⟩, show mutecrypt.commands.lookup [tDb, tStatus] = none by decide +kernel])
      ⟨by decide +kernel, by decide +kernel⟩
  · unfold incrementalArgv
    rw [List.append_assoc]
    exact refused D G tDb tIncremental _ (fun S => by
      show command mutecrypt S (tDb :: tIncremental :: _) = _
      rw [command_group S tIncremental _ ⟨by decide +kernel, by decide +kernel⟩, show mutecrypt.commands.lookup [tDb, tIncremental] = none by decide +kernel])
      ⟨by decide +kernel, by decide +kernel⟩

/-! ### Non-vacuity -/

/-- A database with unused pages that is compacted. -/
example : vacuum ⟨true, true, true⟩ tINCREMENTAL (⟨"x", 7, 0, none⟩ : Base String) = (⟨"x", 0, 2, none⟩, true) ∧
    status ⟨true, true, true⟩ (⟨"x", 0, 2, none⟩ : Base String) = some (tINCREMENTAL, 0) ∧
    incremental ⟨true, true, true⟩ 3 (⟨"x", 7, 2, none⟩ : Base String) = (⟨"x", 4, 2, none⟩, true) ∧
    vacuum ⟨true, true, false⟩ tFULL (⟨"x", 7, 2, none⟩ : Base String) = (⟨"x", 7, 1, none⟩, false) := by
  decide +kernel

end Verif.Ctrl.Vacuum

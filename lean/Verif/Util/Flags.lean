/-
The global options of the programs: `FlagSet.Parse` of Go's package flag, as it is called by `App.Run` of
github.com/urfave/cli v1.20.0 (not part of the repository) with the options that the engines declare
(ctrlengine/ctrlengine.go:431-460, cryptengine/cryptengine.go:155-191).
-/
import Verif.Go

set_option autoImplicit false

namespace Verif.Flags

/-- Options with a value and switches. -/
inductive Kind
  | str
  | bool
  deriving DecidableEq, Repr

/-- The options an application declares. -/
abbrev Decl := Bytes → Option Kind

/-- The options that were set, in the order of the command line. -/
abbrev Settings := List (Bytes × Bytes)

/-- "true". -/
def txtTrue : Bytes := [116, 114, 117, 101]

/-- `strconv.ParseBool`. -/
def parseBool (s : Bytes) : Option Bool :=
  if s ∈ [[49], [116], [84], [116, 114, 117, 101], [84, 82, 85, 69], [84, 114, 117, 101]] then some true
  else if s ∈ [[48], [102], [70], [102, 97, 108, 115, 101], [70, 65, 76, 83, 69], [70, 97, 108, 115, 101]] then some false
  else none

/-- Name and value of `name=value`; the first byte belongs to the name. -/
def cutEq : Bytes → Bytes × Option Bytes
  | [] => ([], none)
  | c :: s => (c :: s.takeWhile (· ≠ 61), match s.dropWhile (· ≠ 61) with | [] => none | _ :: v => some v)

/-- `FlagSet.Parse`: the settings and the arguments that are left, or an error. -/
def parse (D : Decl) : List Bytes → Option (Settings × List Bytes)
  | [] => some ([], [])
  | s :: rest =>
    if s.length < 2 ∨ s.head? ≠ some 45 then some ([], s :: rest)
    else if s = [45, 45] then some ([], rest)
    else
      let name := if s.tail.head? = some 45 then s.drop 2 else s.drop 1
      if name = [] ∨ name.head? = some 45 ∨ name.head? = some 61 then none
      else
        let p := cutEq name
        match D p.1, p.2 with
        | none, _ => none
        | some .bool, none => (parse D rest).map fun r => ((p.1, txtTrue) :: r.1, r.2)
        | some .bool, some v =>
          match parseBool v with
          | none => none
          | some _ => (parse D rest).map fun r => ((p.1, v) :: r.1, r.2)
        | some .str, some v => (parse D rest).map fun r => ((p.1, v) :: r.1, r.2)
        | some .str, none =>
          match rest with
          | [] => none
          | v :: rest => (parse D rest).map fun r => ((p.1, v) :: r.1, r.2)

/-- `GlobalString`: the last setting counts. -/
def Settings.get (S : Settings) (name dflt : Bytes) : Bytes :=
  ((S.reverse.find? (·.1 = name)).map (·.2)).getD dflt

/-- `GlobalBool`. -/
def Settings.on (S : Settings) (name : Bytes) : Bool :=
  ((S.reverse.find? (·.1 = name)).bind fun p => parseBool p.2).getD false

/-- A word that is no option. -/
def Word (w : Bytes) : Prop := w ≠ [] ∧ w.head? ≠ some 45

theorem parse_word (D : Decl) (w : Bytes) (ws : List Bytes) (h : Word w) : parse D (w :: ws) = some ([], w :: ws) := by
  rw [parse, if_pos (.inr h.2)]

/-- The name of an option that can be written as `--name value`. -/
structure Name (n : Bytes) : Prop where
  ne : n ≠ []
  dash : n.head? ≠ some 45
  eq : 61 ∉ n

theorem cutEq_name {n : Bytes} (h : Name n) : cutEq n = (n, none) := by
  cases n with
  | nil => exact absurd rfl h.ne
  | cons c s =>
    have hs : ∀ x ∈ s, decide (x ≠ 61) = true := by
      intro x hx
      rw [decide_eq_true_eq]
      rintro rfl
      exact h.eq (List.mem_cons_of_mem _ hx)
    unfold cutEq
    have h1 : s.takeWhile (· ≠ 61) = s := by
      have := List.takeWhile_append_of_pos (l₂ := []) hs
      simpa using this
    have h2 : s.dropWhile (· ≠ 61) = [] := by
      have := List.dropWhile_append_of_pos (l₂ := []) hs
      simpa using this
    simp only [h1, h2]

/-- `--name value` sets the option to the value, whatever the value is. -/
theorem parse_pair (D : Decl) (n v : Bytes) (rest : List Bytes) (hn : Name n) (hd : D n = some .str) :
    parse D ((45 :: 45 :: n) :: v :: rest) = (parse D rest).map fun r => ((n, v) :: r.1, r.2) := by
  have hne := hn.ne
  have h61 : n.head? ≠ some 61 := by
    intro hz
    exact hn.eq (List.mem_of_head? hz)
  rw [parse, if_neg, if_neg]
  · simp only [List.tail_cons, List.head?_cons, List.drop_succ_cons, List.drop_zero, if_true]
    rw [if_neg (by simp only [not_or]; exact ⟨hne, hn.dash, h61⟩)]
    simp only [cutEq_name hn, hd]
  · intro hz
    simp only [List.cons.injEq, true_and] at hz
    exact hne hz
  · simp

end Verif.Flags

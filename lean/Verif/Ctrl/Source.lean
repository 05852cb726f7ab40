/-
Updating from source (ctrlengine/upkeep.go:159-233, util/git, util/gotool, cmd/mutegenerate): C137.
-/
import Verif.Ctrl.Setup

set_option autoImplicit false

namespace Verif.Ctrl.Source

open Verif

def bs (s : String) : Bytes := s.toUTF8.data.toList

/-! ### text -/

/-- `unicode.IsSpace` on ASCII. -/
def isSp (c : UInt8) : Bool := c == 32 || (9 ≤ c && c ≤ 13)

/-- `strings.TrimSpace` on ASCII text. -/
def trim (s : Bytes) : Bytes := ((s.dropWhile isSp).reverse.dropWhile isSp).reverse

/-- `strings.Split(s, "\n")`. -/
def splitNl : Bytes → List Bytes
  | [] => [[]]
  | c :: cs => if c = 10 then [] :: splitNl cs else match splitNl cs with
    | [] => [[c]]
    | l :: ls => (c :: l) :: ls

/-- `%q` for text of printable ASCII characters, and the control characters that have a short escape (others are not treated). -/
def quote (s : Bytes) : Bytes :=
  34 :: (s.flatMap fun c => if c = 34 then [92, 34] else if c = 92 then [92, 92] else if c = 10 then [92, 110] else if c = 9 then [92, 116]
    else if c = 13 then [92, 114] else [c]) ++ [34]

/-- The lines that `printCode` writes into head.go, one after the other (mutegenerate.go:29-40). -/
def codeLines (commit date : Bytes) : List Bytes :=
  [bs "package release", [], bs "// This code has been generated by mutegenerate.", bs "// DO NOT EDIT AND DO NOT COMMIT TO REPOSITORY!", [], bs "const (",
    9 :: bs "// Commit is the git commit hash.", 9 :: bs "Commit = " ++ quote commit, 9 :: bs "// Date is the git commit date.", 9 :: bs "Date = " ++ quote date,
    bs ")"]

/-- Lines as a file. -/
def joinLines (ls : List Bytes) : Bytes := ls.flatMap fun l => l ++ [10]

def code (commit date : Bytes) : Bytes := joinLines (codeLines commit date)

def commitPrefix : Bytes := bs "Commit = \""

/-- `strings.TrimSuffix(s, "\"")`. -/
def trimQuote (s : Bytes) : Bytes := if s.getLast? = some 34 then s.dropLast else s

/-- The loop of `commitChanged` (mutegenerate.go:49-61). -/
def changedLines (commit : Bytes) : List Bytes → Bool
  | [] => true
  | l :: ls =>
    if commitPrefix.isPrefixOf (trim l) then decide (trimQuote ((trim l).drop commitPrefix.length) ≠ commit)
    else changedLines commit ls

/-- `commitChanged` (mutegenerate.go:43-62); `none`: the file cannot be read. -/
def commitChanged (file : Option Bytes) (commit : Bytes) : Bool :=
  match file with
  | none => true
  | some f => changedLines commit (splitNl f)

/-- The parsing in `GetHead` (git.go:28-31) of what git writes; `none`: the index panics. -/
def parseHead : Bytes → Option (Bytes × Bytes)
  | [] => none
  | c :: cs => if c = 32 then some ([], trim cs) else (parseHead cs).map fun p => (c :: p.1, p.2)

/-! ### the machine -/

/-- A program that was built: the commit of its source, and the head.go compiled into it. -/
structure Bin where
  source : Bytes
  release : Bytes
  deriving DecidableEq, Repr

/-- The source directory and what is installed from it. `clean`: git status --porcelain prints nothing; release/head.go is
ignored by git. `gen` is the commit mutegenerate was built from. -/
structure Tree where
  master : Bytes
  detached : Option Bytes
  clean : Bool
  headgo : Option Bytes
  gen : Bytes
  bins : List Bin
  deriving DecidableEq, Repr

/-- What HEAD is. -/
def Tree.head (t : Tree) : Bytes := t.detached.getD t.master

/-- How a command ends: it works, it fails, or everything stops: after its effect, or after `n` steps of it. -/
inductive Out where
  | ok
  | failed
  | stopped (n : Nat)
  deriving DecidableEq, Repr

/-- What one attempt meets: the outcomes of the commands, the commit git pull gets, the commits names stand for, the dates of
commits, and the files that the compiler accepts as head.go. A merge in git pull that ends with conflicts is not treated. -/
structure Env where
  status : Out
  master : Out
  pull : Out
  upstream : Bytes
  log : Out
  checkout : Out
  instGen : Out
  generate : Out
  install : Out
  back : Out
  resolve : Bytes → Option Bytes
  date : Bytes → Bytes
  compiles : Bytes → Bool

/-- A step: the tree afterwards, and whether to go on. -/
abbrev Step := Tree → Tree × Bool

def Step.next (f g : Step) : Step := fun t =>
  match f t with
  | (t', true) => g t'
  | (t', false) => (t', false)

/-- `git.Status` (git.go:35-51). -/
def status (E : Env) : Step := fun t => (t, decide (E.status = .ok ∧ t.clean = true))

def masterName : Bytes := bs "master"

/-- `git.Checkout` (git.go:65-73). -/
def checkout (E : Env) (o : Out) (name : Bytes) : Step := fun t =>
  if o = .failed then (t, false)
  else if name = masterName then ({ t with detached := none }, decide (o = .ok))
  else match E.resolve name with
    | none => (t, false)
    | some c => ({ t with detached := some c }, decide (o = .ok))

/-- `git.Pull` (git.go:54-62). -/
def pull (E : Env) : Step := fun t => if E.pull = .failed then (t, false) else ({ t with master := E.upstream }, decide (E.pull = .ok))

/-- What git log prints. -/
def logOutput (E : Env) (t : Tree) : Bytes := t.head ++ 32 :: (E.date t.head ++ [10])

/-- `go install ./cmd/mutegenerate` (upkeep.go:204-208). -/
def installGen (E : Env) : Step := fun t => if E.instGen = .failed then (t, false) else ({ t with gen := t.head }, decide (E.instGen = .ok))

/-- `go generate ./release` (upkeep.go:210-215), which runs mutegenerate -o head.go (mutegenerate.go:75-102). It writes line by line. -/
def generate (E : Env) : Step := fun t =>
  match parseHead (logOutput E t) with
  | none => (t, false)
  | some (commit, date) =>
    if commitChanged t.headgo commit = false then (t, decide (E.generate = .ok))
    else match E.generate with
      | .failed => (t, false)
      | .ok => ({ t with headgo := some (code commit date) }, true)
      | .stopped n => ({ t with headgo := some (joinLines ((codeLines commit date).take n)) }, false)

/-- `go install ./cmd/...` (upkeep.go:217-221): the programs are replaced one after the other. -/
def install (E : Env) : Step := fun t =>
  match t.headgo with
  | none => (t, false)
  | some f =>
    if E.compiles f = false then (t, false)
    else match E.install with
      | .ok => ({ t with bins := t.bins.map fun _ => ⟨t.head, f⟩ }, true)
      | .failed => (t, false)
      | .stopped n => ({ t with bins := ((t.bins.take n).map fun _ => ⟨t.head, f⟩) ++ t.bins.drop n }, false)

def build (E : Env) : Step := Step.next (installGen E) (Step.next (generate E) (install E))

/-- From the reading of HEAD on (upkeep.go:187-230). -/
def fromHead (E : Env) (commit : Bytes) : Step := fun t =>
  if E.log ≠ .ok then (t, false)
  else match parseHead (logOutput E t) with
    | none => (t, false)
    | some (head, _) =>
      if head ≠ commit then Step.next (checkout E E.checkout commit) (Step.next (build E) (checkout E E.back masterName)) t
      else build E t

/-- `updateMuteFromSource` (upkeep.go:159-233) for the commit of the configuration. The path of the program is found. -/
def update (E : Env) (commit : Bytes) : Step :=
  Step.next (status E) (Step.next (checkout E E.master masterName) (Step.next (pull E) (fromHead E commit)))

/-- A history of attempts. -/
def run (hs : List (Env × Bytes)) (t : Tree) : Tree := hs.foldl (fun t h => (update h.1 h.2 t).1) t

/-! ### the specification -/

/-- A commit hash. -/
def Hash (c : Bytes) : Prop := c.length = 40 ∧ ∀ x ∈ c, (48 ≤ x ∧ x ≤ 57) ∨ (97 ≤ x ∧ x ≤ 102)

/-- Names stand for commits, the compiler accepts what mutegenerate writes, and nothing that is cut off. -/
structure Env.Good (E : Env) : Prop where
  upstream : Hash E.upstream
  resolve : ∀ n c, E.resolve n = some c → Hash c
  whole : ∀ c d, Hash c → E.compiles (code c d) = true
  cut : ∀ c d n, n < 11 → E.compiles (joinLines ((codeLines c d).take n)) = false

/-- The commands all work and the commit is known. -/
structure Env.Works (E : Env) (commit : Bytes) : Prop where
  status : E.status = .ok
  master : E.master = .ok
  pull : E.pull = .ok
  log : E.log = .ok
  checkout : E.checkout = .ok
  instGen : E.instGen = .ok
  generate : E.generate = .ok
  install : E.install = .ok
  back : E.back = .ok
  known : (E.resolve commit).isSome

/-- A source directory in which head.go was not written by hand: it is missing, or mutegenerate wrote it, perhaps not to its
end. -/
structure Tree.Good (t : Tree) : Prop where
  master : Hash t.master
  detached : ∀ c, t.detached = some c → Hash c
  headgo : ∀ f, t.headgo = some f → ∃ c d n, Hash c ∧ f = joinLines ((codeLines c d).take n)

/-! ### proofs about the text -/

theorem splitNl_line (l rest : Bytes) (h : ∀ c ∈ l, c ≠ 10) : splitNl (l ++ 10 :: rest) = l :: splitNl rest := by
  induction l with
  | nil => simp [splitNl]
  | cons c l ih =>
    have hc : c ≠ 10 := h c (.head _)
    have := ih fun x hx => h x (.tail _ hx)
    rw [List.cons_append, splitNl, if_neg hc, this]

theorem splitNl_join (ls : List Bytes) (h : ∀ l ∈ ls, ∀ c ∈ l, c ≠ 10) : splitNl (joinLines ls) = ls ++ [[]] := by
  induction ls with
  | nil => rfl
  | cons l ls ih =>
    show splitNl ((l ++ [10]) ++ joinLines ls) = _
    rw [List.append_assoc, List.singleton_append, splitNl_line l _ (h l (.head _)), ih fun x hx => h x (.tail _ hx)]
    rfl

theorem quote_nl (s : Bytes) : ∀ c ∈ quote s, c ≠ 10 := by
  intro c hc
  simp only [quote, List.cons_append, List.mem_cons, List.mem_append, List.mem_flatMap, List.mem_singleton, List.not_mem_nil, or_false] at hc
  rcases hc with rfl | ⟨x, -, hx⟩ | rfl
  · decide
  · repeat' split at hx
    all_goals simp only [List.mem_cons, List.not_mem_nil, or_false] at hx
    · rcases hx with rfl | rfl <;> decide
    · rcases hx with rfl | rfl <;> decide
    · rcases hx with rfl | rfl <;> decide
    · rcases hx with rfl | rfl <;> decide
    · rcases hx with rfl | rfl <;> decide
    · rw [hx]; assumption
  · decide

theorem hash_quote {c : Bytes} (h : Hash c) : quote c = 34 :: c ++ [34] := by
  unfold quote
  congr 2
  have : ∀ l : Bytes, (∀ x ∈ l, (48 ≤ x ∧ x ≤ 57) ∨ (97 ≤ x ∧ x ≤ 102)) →
      (l.flatMap fun c => if c = 34 then [92, 34] else if c = 92 then [92, 92] else if c = 10 then [92, 110] else if c = 9 then [92, 116]
        else if c = 13 then [92, 114] else [c]) = l := by
    intro l hl
    induction l with
    | nil => rfl
    | cons x l ih =>
      have hx := hl x (.head _)
      rw [List.flatMap_cons, ih fun y hy => hl y (.tail _ hy)]
      have h1 : x ≠ 34 := by rintro rfl; revert hx; decide
      have h2 : x ≠ 92 := by rintro rfl; revert hx; decide
      have h3 : x ≠ 10 := by rintro rfl; revert hx; decide
      have h4 : x ≠ 9 := by rintro rfl; revert hx; decide
      have h5 : x ≠ 13 := by rintro rfl; revert hx; decide
      rw [if_neg h1, if_neg h2, if_neg h3, if_neg h4, if_neg h5]
      rfl
  rw [this c h.2]

theorem plain_lines : ∀ l ∈ [bs "package release", bs "// This code has been generated by mutegenerate.", bs "// DO NOT EDIT AND DO NOT COMMIT TO REPOSITORY!", bs "const (",
    9 :: bs "// Commit is the git commit hash.", 9 :: bs "// Date is the git commit date.", 9 :: bs "Commit = ", 9 :: bs "Date = ", bs ")"], ∀ c ∈ l, c ≠ 10 := by
  decide +kernel

theorem codeLines_nl (commit date : Bytes) : ∀ l ∈ codeLines commit date, ∀ c ∈ l, c ≠ 10 := by
  intro l hl
  have hp := plain_lines
  simp only [codeLines, List.mem_cons, List.not_mem_nil, or_false] at hl
  have happ : ∀ (a b : Bytes), (∀ c ∈ a, c ≠ 10) → (∀ c ∈ b, c ≠ 10) → ∀ c ∈ a ++ b, c ≠ 10 := by
    intro a b ha hb c hc
    rcases List.mem_append.mp hc with h | h
    · exact ha c h
    · exact hb c h
  rcases hl with rfl | rfl | rfl | rfl | rfl | rfl | rfl | rfl | rfl | rfl | rfl
  · exact hp _ (by simp)
  · exact nofun
  · exact hp _ (by simp)
  · exact hp _ (by simp)
  · exact nofun
  · exact hp _ (by simp)
  · exact hp _ (by simp)
  · exact happ _ _ (hp _ (by simp)) (quote_nl _)
  · exact hp _ (by simp)
  · exact happ _ _ (hp _ (by simp)) (quote_nl _)
  · exact hp _ (by simp)

theorem changed_skip (commit : Bytes) (l : Bytes) (ls : List Bytes) (h : commitPrefix.isPrefixOf (trim l) = false) :
    changedLines commit (l :: ls) = changedLines commit ls := by
  rw [changedLines, h]
  rfl

theorem trim_commit {c : Bytes} (h : Hash c) : trim (9 :: bs "Commit = " ++ quote c) = commitPrefix ++ (c ++ [34]) := by
  rw [hash_quote h]
  have hc : bs "Commit = " = [67, 111, 109, 109, 105, 116, 32, 61, 32] := by decide +kernel
  have hp : commitPrefix = [67, 111, 109, 109, 105, 116, 32, 61, 32, 34] := by decide +kernel
  rw [hc, hp]
  unfold trim
  have h9 : isSp 9 = true := by decide
  have h67 : isSp 67 = false := by decide
  have h34 : isSp 34 = false := by decide
  simp only [List.cons_append, List.nil_append, List.dropWhile_cons, h9, h67, if_true, if_false, Bool.false_eq_true, List.reverse_cons, List.reverse_append,
    List.append_assoc, List.reverse_nil, h34]
  simp

theorem skip_lines : (∀ l ∈ [bs "package release", [], bs "// This code has been generated by mutegenerate.", bs "// DO NOT EDIT AND DO NOT COMMIT TO REPOSITORY!", [], bs "const (",
    9 :: bs "// Commit is the git commit hash."], commitPrefix.isPrefixOf (trim l) = false) := by
  decide +kernel

/-- What `commitChanged` makes of a file of the generator. -/
theorem changed_code {c : Bytes} (h : Hash c) (d commit : Bytes) (n : Nat) :
    commitChanged (some (joinLines ((codeLines c d).take n))) commit = (decide (n < 8) || decide (c ≠ commit)) := by
  have hs := skip_lines
  show changedLines commit (splitNl _) = _
  rw [splitNl_join _ fun l hl => codeLines_nl c d l (List.mem_of_mem_take hl)]
  have hnil : changedLines commit [[]] = true := by
    rw [changed_skip _ _ _ (hs _ (by simp))]
    rfl
  have key : ∀ rest, changedLines commit ((9 :: bs "Commit = " ++ quote c) :: rest) = decide (c ≠ commit) := by
    intro rest
    rw [changedLines, trim_commit h]
    have hpre : commitPrefix.isPrefixOf (commitPrefix ++ (c ++ [34])) = true := by
      rw [List.isPrefixOf_iff_prefix]
      exact List.prefix_append _ _
    rw [if_pos hpre, List.drop_left]
    unfold trimQuote
    rw [if_pos (by simp)]
    simp
  match n with
  | 0 => exact hnil
  | 1 => simp only [codeLines, List.take_succ_cons, List.take_zero, List.cons_append, List.nil_append]; rw [changed_skip _ _ _ (hs _ (by simp)), hnil]; rfl
  | 2 => simp only [codeLines, List.take_succ_cons, List.take_zero, List.cons_append, List.nil_append]; rw [changed_skip _ _ _ (hs _ (by simp)), changed_skip _ _ _ (hs _ (by simp)), hnil]; rfl
  | 3 => simp only [codeLines, List.take_succ_cons, List.take_zero, List.cons_append, List.nil_append]; rw [changed_skip _ _ _ (hs _ (by simp)), changed_skip _ _ _ (hs _ (by simp)), changed_skip _ _ _ (hs _ (by simp)), hnil]; rfl
  | 4 => simp only [codeLines, List.take_succ_cons, List.take_zero, List.cons_append, List.nil_append]; rw [changed_skip _ _ _ (hs _ (by simp)), changed_skip _ _ _ (hs _ (by simp)), changed_skip _ _ _ (hs _ (by simp)), changed_skip _ _ _ (hs _ (by simp)), hnil]; rfl
  | 5 => simp only [codeLines, List.take_succ_cons, List.take_zero, List.cons_append, List.nil_append]; rw [changed_skip _ _ _ (hs _ (by simp)), changed_skip _ _ _ (hs _ (by simp)), changed_skip _ _ _ (hs _ (by simp)), changed_skip _ _ _ (hs _ (by simp)), changed_skip _ _ _ (hs _ (by simp)), hnil]; rfl
  | 6 => simp only [codeLines, List.take_succ_cons, List.take_zero, List.cons_append, List.nil_append]; rw [changed_skip _ _ _ (hs _ (by simp)), changed_skip _ _ _ (hs _ (by simp)), changed_skip _ _ _ (hs _ (by simp)), changed_skip _ _ _ (hs _ (by simp)), changed_skip _ _ _ (hs _ (by simp)), changed_skip _ _ _ (hs _ (by simp)), hnil]; rfl
  | 7 => simp only [codeLines, List.take_succ_cons, List.take_zero, List.cons_append, List.nil_append]; rw [changed_skip _ _ _ (hs _ (by simp)), changed_skip _ _ _ (hs _ (by simp)), changed_skip _ _ _ (hs _ (by simp)), changed_skip _ _ _ (hs _ (by simp)), changed_skip _ _ _ (hs _ (by simp)), changed_skip _ _ _ (hs _ (by simp)), changed_skip _ _ _ (hs _ (by simp)), hnil]; rfl
  | n + 8 =>
    simp only [codeLines, List.take_succ_cons, List.cons_append]
    rw [changed_skip _ _ _ (hs _ (by simp)), changed_skip _ _ _ (hs _ (by simp)), changed_skip _ _ _ (hs _ (by simp)), changed_skip _ _ _ (hs _ (by simp)), changed_skip _ _ _ (hs _ (by simp)), changed_skip _ _ _ (hs _ (by simp)), changed_skip _ _ _ (hs _ (by simp))]
    have := key ((List.take n [9 :: bs "// Date is the git commit date.", 9 :: bs "Date = " ++ quote d, bs ")"]) ++ [[]])
    rw [show decide (n + 8 < 8) = false by simp]
    simpa using this

theorem parse_log {c : Bytes} (h : Hash c) (d : Bytes) : parseHead (c ++ 32 :: d) = some (c, trim d) := by
  have : ∀ l : Bytes, (∀ x ∈ l, (48 ≤ x ∧ x ≤ 57) ∨ (97 ≤ x ∧ x ≤ 102)) → parseHead (l ++ 32 :: d) = some (l, trim d) := by
    intro l hl
    induction l with
    | nil => rfl
    | cons x l ih =>
      have hx : x ≠ 32 := by
        rintro rfl
        have := hl 32 (.head _)
        revert this
        decide
      rw [List.cons_append, parseHead, if_neg hx, ih fun y hy => hl y (.tail _ hy)]
      rfl
  exact this c h.2

/-! ### proofs about the steps -/

theorem next_cases (f g : Step) (t : Tree) :
    (∃ t1, f t = (t1, true) ∧ Step.next f g t = g t1) ∨ (∃ t1, f t = (t1, false) ∧ Step.next f g t = (t1, false)) := by
  unfold Step.next
  cases hf : f t with
  | mk t1 b => cases b with
    | true => exact .inl ⟨t1, rfl, rfl⟩
    | false => exact .inr ⟨t1, rfl, rfl⟩

theorem head_hash {t : Tree} (h : t.Good) : Hash t.head := by
  unfold Tree.head
  cases hd : t.detached with
  | none => exact h.master
  | some c => exact h.detached c hd

theorem code_eq (c d : Bytes) : code c d = joinLines ((codeLines c d).take 11) := rfl

theorem log_parses {E : Env} {t : Tree} (h : t.Good) : ∃ d, parseHead (logOutput E t) = some (t.head, d) := ⟨_, parse_log (head_hash h) _⟩

/-- head.go is that of the commit, at least with the line that names it. -/
def Named (t : Tree) (c : Bytes) : Prop := ∃ d n, 8 ≤ n ∧ t.headgo = some (joinLines ((codeLines c d).take n))

theorem generate_spec (E : Env) (t : Tree) (h : t.Good) :
    ∃ g, (generate E t).1 = { t with headgo := g } ∧ ({ t with headgo := g } : Tree).Good ∧
      ((generate E t).2 = true → Named { t with headgo := g } t.head ∧ E.generate = .ok) := by
  have hh := head_hash h
  obtain ⟨d, hd⟩ := log_parses (E := E) h
  unfold generate
  rw [hd]
  dsimp only
  by_cases hc : commitChanged t.headgo t.head = false
  · rw [if_pos hc]
    refine ⟨t.headgo, rfl, h, fun he => ⟨?_, of_decide_eq_true he⟩⟩
    cases hg : t.headgo with
    | none => rw [hg] at hc; cases hc
    | some f =>
      obtain ⟨c, d, n, h1, rfl⟩ := h.headgo f hg
      rw [hg, changed_code h1] at hc
      simp only [Bool.or_eq_false_iff, decide_eq_false_iff_not, Decidable.not_not, Nat.not_lt] at hc
      rw [← hc.2]
      exact ⟨d, n, hc.1, rfl⟩
  · rw [if_neg hc]
    cases he : E.generate with
    | failed => exact ⟨t.headgo, rfl, h, nofun⟩
    | ok =>
      refine ⟨some (code t.head d), rfl, ⟨h.master, h.detached, ?_⟩, fun _ => ⟨⟨d, 11, by decide, rfl⟩, rfl⟩⟩
      intro f hf
      cases hf
      exact ⟨_, _, _, hh, code_eq _ _⟩
    | stopped n =>
      refine ⟨some (joinLines ((codeLines t.head d).take n)), rfl, ⟨h.master, h.detached, ?_⟩, nofun⟩
      intro f hf
      cases hf
      exact ⟨_, _, _, hh, rfl⟩

/-- Built from the commit, with the head.go of it. -/
def BuiltFrom (c : Bytes) (b : Bin) : Prop := b.source = c ∧ ∃ d, b.release = code c d

theorem compiled {E : Env} (hE : E.Good) {c d : Bytes} {n : Nat} (h : E.compiles (joinLines ((codeLines c d).take n)) = true) :
    joinLines ((codeLines c d).take n) = code c d := by
  by_cases hn : n < 11
  · rw [hE.cut c d n hn] at h; cases h
  · unfold code
    rw [List.take_of_length_le (by simp [codeLines]; omega)]

theorem install_spec (E : Env) (hE : E.Good) (t : Tree) (hn : Named t t.head) :
    ∃ bins, (install E t).1 = { t with bins := bins } ∧ (∀ b ∈ bins, b ∈ t.bins ∨ BuiltFrom t.head b) ∧
      ((install E t).2 = true → (∀ b ∈ bins, BuiltFrom t.head b) ∧ bins.length = t.bins.length) := by
  obtain ⟨d, n, -, hg⟩ := hn
  unfold install
  rw [hg]
  dsimp only
  by_cases hc : E.compiles (joinLines ((codeLines t.head d).take n)) = false
  · rw [if_pos hc]
    exact ⟨t.bins, by rw [← hg], fun b hb => .inl hb, nofun⟩
  · rw [if_neg hc]
    have hb := compiled hE (by simpa using hc)
    rw [hb]
    cases E.install with
    | failed => exact ⟨t.bins, by rw [← hb, ← hg], fun b hb => .inl hb, nofun⟩
    | ok =>
      refine ⟨t.bins.map fun _ => ⟨t.head, code t.head d⟩, by rw [← hb, ← hg], ?_, fun _ => ⟨?_, by simp⟩⟩
      · intro b hb
        obtain ⟨_, -, rfl⟩ := List.mem_map.mp hb
        exact .inr ⟨rfl, d, rfl⟩
      · intro b hb
        obtain ⟨_, -, rfl⟩ := List.mem_map.mp hb
        exact ⟨rfl, d, rfl⟩
    | stopped k =>
      refine ⟨((t.bins.take k).map fun _ => ⟨t.head, code t.head d⟩) ++ t.bins.drop k, by rw [← hb, ← hg], ?_, nofun⟩
      intro b hb
      rcases List.mem_append.mp hb with hb | hb
      · obtain ⟨_, -, rfl⟩ := List.mem_map.mp hb
        exact .inr ⟨rfl, d, rfl⟩
      · exact .inl (List.mem_of_mem_drop hb)

/-- What `build` leaves alone, and what it makes. -/
theorem build_spec (E : Env) (hE : E.Good) (t : Tree) (h : t.Good) :
    ∃ g gen bins, (build E t).1 = { t with headgo := g, gen := gen, bins := bins } ∧ ({ t with headgo := g, gen := gen, bins := bins } : Tree).Good ∧
      (∀ b ∈ bins, b ∈ t.bins ∨ BuiltFrom t.head b) ∧
      ((build E t).2 = true → (∀ b ∈ bins, BuiltFrom t.head b) ∧ bins.length = t.bins.length ∧ gen = t.head) := by
  unfold build
  have hgen : ∃ gen, (installGen E t).1 = { t with gen := gen } ∧ ((installGen E t).2 = true → gen = t.head) := by
    unfold installGen
    by_cases hf : E.instGen = .failed
    · rw [if_pos hf]; exact ⟨t.gen, rfl, nofun⟩
    · rw [if_neg hf]; exact ⟨t.head, rfl, fun _ => rfl⟩
  obtain ⟨gen, hgen, hgt⟩ := hgen
  rcases next_cases (installGen E) (Step.next (generate E) (install E)) t with ⟨t1, h1, h2⟩ | ⟨t1, h1, h2⟩
  · rw [h1] at hgen hgt
    replace hgen : t1 = { t with gen := gen } := hgen
    have hgh := hgt rfl
    rw [h2]
    have hG1 : t1.Good := by rw [hgen]; exact ⟨h.master, h.detached, h.headgo⟩
    have hhead : t1.head = t.head := by rw [hgen]; rfl
    obtain ⟨g, h3, h4, h5⟩ := generate_spec E t1 hG1
    rcases next_cases (generate E) (install E) t1 with ⟨t2, h6, h7⟩ | ⟨t2, h6, h7⟩
    · rw [h6] at h3 h5
      replace h3 : t2 = { t1 with headgo := g } := h3
      obtain ⟨hn, -⟩ := h5 rfl
      have hhead2 : t2.head = t.head := by rw [h3]; exact hhead
      have hn2 : Named t2 t2.head := by rw [hhead2, ← hhead, h3]; exact hn
      obtain ⟨bins, h8, h9, h10⟩ := install_spec E hE t2 hn2
      rw [h7]
      refine ⟨g, gen, bins, by rw [h8, h3, hgen], ?_, ?_, ?_⟩
      · rw [hgen] at h4
        exact ⟨h4.master, h4.detached, h4.headgo⟩
      · intro b hb
        have := h9 b hb
        rw [hhead2, h3, hgen] at this
        exact this
      · intro ht
        obtain ⟨h11, h12⟩ := h10 ht
        rw [hhead2] at h11
        rw [h3, hgen] at h12
        exact ⟨h11, h12, hgh⟩
    · rw [h6] at h3
      replace h3 : t2 = { t1 with headgo := g } := h3
      rw [h7]
      refine ⟨g, gen, t.bins, by rw [h3, hgen], ?_, fun b hb => .inl hb, nofun⟩
      rw [hgen] at h4
      exact ⟨h4.master, h4.detached, h4.headgo⟩
  · rw [h1] at hgen
    replace hgen : t1 = { t with gen := gen } := hgen
    rw [h2]
    exact ⟨t.headgo, gen, t.bins, hgen, ⟨h.master, h.detached, h.headgo⟩, fun b hb => .inl hb, nofun⟩

theorem checkout_master (E : Env) (o : Out) (t : Tree) :
    ∃ d, (checkout E o masterName t).1 = { t with detached := d } ∧ (d = none ∨ d = t.detached) ∧ ((checkout E o masterName t).2 = true → d = none ∧ o = .ok) := by
  unfold checkout
  by_cases hf : o = .failed
  · rw [if_pos hf]; exact ⟨t.detached, rfl, .inr rfl, nofun⟩
  · rw [if_neg hf, if_pos rfl]
    exact ⟨none, rfl, .inl rfl, fun h => ⟨rfl, of_decide_eq_true h⟩⟩

theorem checkout_commit (E : Env) (o : Out) (name : Bytes) (hm : name ≠ masterName) (t : Tree) :
    ((checkout E o name t) = (t, false)) ∨ ∃ c, E.resolve name = some c ∧ (checkout E o name t).1 = { t with detached := some c } := by
  unfold checkout
  by_cases hf : o = .failed
  · rw [if_pos hf]; exact .inl rfl
  · rw [if_neg hf, if_neg hm]
    cases hr : E.resolve name with
    | none => exact .inl rfl
    | some c => exact .inr ⟨c, rfl, rfl⟩

/-- The commit that was asked for. -/
def Asked (E : Env) (commit c : Bytes) : Prop := c = commit ∨ E.resolve commit = some c

theorem fromHead_spec (E : Env) (hE : E.Good) (commit : Bytes) (hm : commit ≠ masterName) (t : Tree) (h : t.Good) :
    (fromHead E commit t).1.Good ∧ (fromHead E commit t).1.clean = t.clean ∧ (fromHead E commit t).1.master = t.master ∧
      ∃ c, Asked E commit c ∧ (∀ b ∈ (fromHead E commit t).1.bins, b ∈ t.bins ∨ BuiltFrom c b) ∧
        ((fromHead E commit t).2 = true → Hash c ∧ (∀ b ∈ (fromHead E commit t).1.bins, BuiltFrom c b) ∧ (fromHead E commit t).1.bins.length = t.bins.length ∧
          (fromHead E commit t).1.gen = c ∧ (t.detached = none → (fromHead E commit t).1.detached = none)) := by
  unfold fromHead
  by_cases hl : E.log ≠ .ok
  · rw [if_pos hl]
    exact ⟨h, rfl, rfl, commit, .inl rfl, fun b hb => .inl hb, nofun⟩
  · rw [if_neg hl]
    obtain ⟨d, hd⟩ := log_parses (E := E) h
    rw [hd]
    dsimp only
    by_cases hc : t.head ≠ commit
    · rw [if_pos hc]
      rcases checkout_commit E E.checkout commit hm t with hco | ⟨c, hr, hco⟩
      · rcases next_cases (checkout E E.checkout commit) (Step.next (build E) (checkout E E.back masterName)) t with ⟨t1, h1, -⟩ | ⟨t1, h1, h2⟩
        · rw [hco] at h1; cases h1
        · rw [hco] at h1; cases h1
          rw [h2]
          exact ⟨h, rfl, rfl, commit, .inl rfl, fun b hb => .inl hb, nofun⟩
      · have hG : ({ t with detached := some c } : Tree).Good := ⟨h.master, fun x hx => by cases hx; exact hE.resolve _ _ hr, h.headgo⟩
        rcases next_cases (checkout E E.checkout commit) (Step.next (build E) (checkout E E.back masterName)) t with ⟨t1, h1, h2⟩ | ⟨t1, h1, h2⟩
        · rw [h1] at hco
          replace hco : t1 = { t with detached := some c } := hco
          rw [h2]
          have hh : t1.head = c := by rw [hco]; rfl
          obtain ⟨g, gen, bins, h3, h4, h5, h6⟩ := build_spec E hE t1 (by rw [hco]; exact hG)
          rcases next_cases (build E) (checkout E E.back masterName) t1 with ⟨t2, h7, h8⟩ | ⟨t2, h7, h8⟩
          · rw [h7] at h3 h6
            replace h3 : t2 = { t1 with headgo := g, gen := gen, bins := bins } := h3
            obtain ⟨d', h9, h10, h11⟩ := checkout_master E E.back t2
            rw [h8]
            obtain ⟨h12, h13, h14⟩ := h6 rfl
            refine ⟨?_, ?_, ?_, c, .inr hr, ?_, ?_⟩
            · rw [h9, h3]
              refine ⟨h4.master, fun x hx => ?_, h4.headgo⟩
              rcases h10 with rfl | rfl
              · cases hx
              · rw [h3] at hx; exact h4.detached x hx
            · rw [h9, h3, hco]
            · rw [h9, h3, hco]
            · intro b hb
              rw [h9, h3] at hb
              have := h5 b hb
              rw [hh, hco] at this
              exact this
            · intro ht
              refine ⟨hE.resolve _ _ hr, ?_, ?_, ?_, fun _ => ?_⟩
              · intro b hb
                rw [h9, h3] at hb
                rw [← hh]
                exact h12 b hb
              · rw [h9, h3]
                rw [hco] at h13
                exact h13
              · rw [h9, h3]
                exact h14.trans hh
              · rw [h9]
                exact (h11 ht).1
          · rw [h7] at h3
            replace h3 : t2 = { t1 with headgo := g, gen := gen, bins := bins } := h3
            rw [h8]
            refine ⟨by rw [h3]; exact h4, by rw [h3, hco], by rw [h3, hco], c, .inr hr, ?_, nofun⟩
            intro b hb
            rw [h3] at hb
            have := h5 b hb
            rw [hh, hco] at this
            exact this
        · rw [h1] at hco
          replace hco : t1 = { t with detached := some c } := hco
          rw [h2]
          refine ⟨by rw [hco]; exact hG, by rw [hco], by rw [hco], c, .inr hr, ?_, nofun⟩
          intro b hb
          rw [hco] at hb
          exact .inl hb
    · rw [if_neg hc]
      have hc := Decidable.not_not.mp hc
      obtain ⟨g, gen, bins, h3, h4, h5, h6⟩ := build_spec E hE t h
      refine ⟨by rw [h3]; exact h4, by rw [h3], by rw [h3], commit, .inl rfl, ?_, ?_⟩
      · intro b hb
        rw [h3] at hb
        rw [← hc]
        exact h5 b hb
      · intro ht
        obtain ⟨h12, h13, h14⟩ := h6 ht
        rw [h3, ← hc]
        exact ⟨head_hash h, h12, h13, h14, fun x => x⟩

theorem update_spec (E : Env) (hE : E.Good) (commit : Bytes) (hm : commit ≠ masterName) (t : Tree) (h : t.Good) :
    (update E commit t).1.Good ∧ (update E commit t).1.clean = t.clean ∧
      ∃ c, Asked E commit c ∧ (∀ b ∈ (update E commit t).1.bins, b ∈ t.bins ∨ BuiltFrom c b) ∧
        ((update E commit t).2 = true → Hash c ∧ t.clean = true ∧ (∀ b ∈ (update E commit t).1.bins, BuiltFrom c b) ∧ (update E commit t).1.bins.length = t.bins.length ∧
          (update E commit t).1.gen = c ∧ (update E commit t).1.detached = none ∧ (update E commit t).1.master = E.upstream) := by
  unfold update
  rcases next_cases (status E) (Step.next (checkout E E.master masterName) (Step.next (pull E) (fromHead E commit))) t with ⟨t1, h1, h2⟩ | ⟨t1, h1, h2⟩
  · have ht1 : t1 = t := (Prod.mk.inj h1).1.symm
    have hcl : t.clean = true := (of_decide_eq_true (Prod.mk.inj h1).2).2
    subst ht1
    rw [h2]
    obtain ⟨d, h3, h4, h5⟩ := checkout_master E E.master t1
    have hG : ({ t1 with detached := d } : Tree).Good := by
      refine ⟨h.master, fun x hx => ?_, h.headgo⟩
      rcases h4 with rfl | rfl
      · cases hx
      · exact h.detached x hx
    rcases next_cases (checkout E E.master masterName) (Step.next (pull E) (fromHead E commit)) t1 with ⟨t2, h6, h7⟩ | ⟨t2, h6, h7⟩
    · rw [h6] at h3 h5
      replace h3 : t2 = { t1 with detached := d } := h3
      obtain ⟨rfl, -⟩ := h5 rfl
      rw [h7]
      rcases next_cases (pull E) (fromHead E commit) t2 with ⟨t3, h8, h9⟩ | ⟨t3, h8, h9⟩
      · have h10 : t3 = { t2 with master := E.upstream } := by
          unfold pull at h8
          by_cases hf : E.pull = .failed
          · rw [if_pos hf] at h8; cases h8
          · rw [if_neg hf] at h8; exact (Prod.mk.inj h8).1.symm
        rw [h9]
        have hG3 : t3.Good := by
          rw [h10, h3]
          exact ⟨hE.upstream, hG.detached, h.headgo⟩
        obtain ⟨h11, h12, h13, c, h14, h15, h16⟩ := fromHead_spec E hE commit hm t3 hG3
        have hb : t3.bins = t1.bins := by rw [h10, h3]
        refine ⟨h11, by rw [h12, h10, h3], c, h14, by rw [← hb]; exact h15, fun ht => ?_⟩
        obtain ⟨hhc, h17, h18, h19, h20⟩ := h16 ht
        exact ⟨hhc, hcl, h17, by rw [h18, hb], h19, h20 (by rw [h10, h3]), by rw [h13, h10]⟩
      · have h10 : t3 = t2 ∨ t3 = { t2 with master := E.upstream } := by
          unfold pull at h8
          by_cases hf : E.pull = .failed
          · rw [if_pos hf] at h8; exact .inl (Prod.mk.inj h8).1.symm
          · rw [if_neg hf] at h8; exact .inr (Prod.mk.inj h8).1.symm
        rw [h9]
        refine ⟨?_, ?_, commit, .inl rfl, ?_, nofun⟩
        · rcases h10 with h10 | h10
          · rw [h10, h3]; exact hG
          · rw [h10, h3]; exact ⟨hE.upstream, hG.detached, h.headgo⟩
        · rcases h10 with h10 | h10 <;> rw [h10, h3]
        · intro b hb
          rcases h10 with h10 | h10 <;> (rw [h10, h3] at hb; exact .inl hb)
    · rw [h6] at h3
      replace h3 : t2 = { t1 with detached := d } := h3
      rw [h7]
      refine ⟨by rw [h3]; exact hG, by rw [h3], commit, .inl rfl, ?_, nofun⟩
      intro b hb
      rw [h3] at hb
      exact .inl hb
  · have ht1 : t1 = t := (Prod.mk.inj h1).1.symm
    subst ht1
    rw [h2]
    exact ⟨h, rfl, commit, .inl rfl, fun b hb => .inl hb, nofun⟩

/-- A history of attempts that can occur. -/
def GoodHistory (hs : List (Env × Bytes)) : Prop := ∀ h ∈ hs, h.1.Good ∧ h.2 ≠ masterName

theorem run_spec (hs : List (Env × Bytes)) (hg : GoodHistory hs) (t : Tree) (h : t.Good) :
    (run hs t).Good ∧ (run hs t).clean = t.clean ∧ ∀ b ∈ (run hs t).bins, b ∈ t.bins ∨ ∃ x ∈ hs, ∃ c, Asked x.1 x.2 c ∧ BuiltFrom c b := by
  induction hs generalizing t with
  | nil => exact ⟨h, rfl, fun b hb => .inl hb⟩
  | cons x hs ih =>
    obtain ⟨h1, h2, c, h3, h4, -⟩ := update_spec x.1 (hg x (.head _)).1 x.2 (hg x (.head _)).2 t h
    obtain ⟨h5, h6, h7⟩ := ih (fun y hy => hg y (.tail _ hy)) _ h1
    refine ⟨h5, h6.trans h2, fun b hb => ?_⟩
    rcases h7 b hb with h8 | ⟨y, hy, h8⟩
    · rcases h4 b h8 with h9 | h9
      · exact .inl h9
      · exact .inr ⟨x, .head _, c, h3, h9⟩
    · exact .inr ⟨y, .tail _ hy, h8⟩

/-! ### C137 -/

/-- C137: whatever attempts came before, one that reports success found no local changes, and leaves every program, the
generator included, built from the commit that was asked for and naming it as its release; the source is then on the master branch as pulled. -/
theorem C137_installed (hs : List (Env × Bytes)) (hg : GoodHistory hs) (t : Tree) (h : t.Good) (E : Env) (hE : E.Good) (commit : Bytes) (hm : commit ≠ masterName)
    (hok : (update E commit (run hs t)).2 = true) :
    let t' := (update E commit (run hs t)).1
    t.clean = true ∧ (∃ c, Hash c ∧ (c = commit ∨ E.resolve commit = some c) ∧ (∀ b ∈ t'.bins, b.source = c ∧ ∃ date, b.release = code c date) ∧ t'.gen = c) ∧
      t'.bins.length = (run hs t).bins.length ∧ t'.detached = none ∧ t'.master = E.upstream ∧ t'.clean = true := by
  obtain ⟨h1, h2, -⟩ := run_spec hs hg t h
  obtain ⟨-, h3, c, h4, -, h6⟩ := update_spec E hE commit hm _ h1
  obtain ⟨hhc, h7, h8, h9, h10, h11, h12⟩ := h6 hok
  exact ⟨h2.symm.trans h7, ⟨c, hhc, h4, h8, h10⟩, h9, h11, h12, h3.trans h7⟩

/-- C137: however often updating fails or is interrupted, each program is the one from before or was built, completely, from a
commit that was asked for; never from another one, such as the head of the master branch. -/
theorem C137_sources (hs : List (Env × Bytes)) (hg : GoodHistory hs) (t : Tree) (h : t.Good) :
    ∀ b ∈ (run hs t).bins, b ∈ t.bins ∨ ∃ x ∈ hs, ∃ c, (c = x.2 ∨ x.1.resolve x.2 = some c) ∧ b.source = c ∧ ∃ date, b.release = code c date :=
  (run_spec hs hg t h).2.2

/-- C137: with local changes nothing at all is done. -/
theorem C137_local_changes (E : Env) (commit : Bytes) (t : Tree) (h : t.clean = false) : update E commit t = (t, false) := by
  unfold update Step.next status
  rw [h]
  simp

/-- The generator was stopped while it wrote the head.go of this commit, after the line with the commit. -/
def Cut (t : Tree) (c : Bytes) : Prop := ∃ d n, 8 ≤ n ∧ n < 11 ∧ t.headgo = some (joinLines ((codeLines c d).take n))

theorem next_true {f g : Step} {t t1 : Tree} (h : f t = (t1, true)) : Step.next f g t = g t1 := by
  unfold Step.next
  rw [h]

theorem build_works (E : Env) (hE : E.Good) (commit : Bytes) (hw : E.Works commit) (t : Tree) (h : t.Good) (hc : ¬Cut t t.head) : (build E t).2 = true := by
  unfold build
  have h1 : installGen E t = ({ t with gen := t.head }, true) := by
    unfold installGen
    rw [hw.instGen]
    rfl
  rw [next_true h1]
  have hG1 : ({ t with gen := t.head } : Tree).Good := ⟨h.master, h.detached, h.headgo⟩
  obtain ⟨d, hd⟩ := log_parses (E := E) hG1
  have h2 : ∃ f d, f = code t.head d ∧ generate E { t with gen := t.head } = ({ t with gen := t.head, headgo := some f }, true) := by
    unfold generate
    rw [hd]
    dsimp only
    have hhd : Tree.head { t with gen := t.head } = t.head := rfl
    rw [hhd]
    by_cases hcc : commitChanged t.headgo t.head = false
    · rw [if_pos (show commitChanged t.headgo _ = false from hcc)]
      cases hg : t.headgo with
      | none => rw [hg] at hcc; cases hcc
      | some f =>
        obtain ⟨c, d, n, h1, rfl⟩ := h.headgo f hg
        rw [hg, changed_code h1] at hcc
        simp only [Bool.or_eq_false_iff, decide_eq_false_iff_not, Decidable.not_not, Nat.not_lt] at hcc
        obtain ⟨hn, rfl⟩ := hcc
        refine ⟨_, d, ?_, by rw [hw.generate]; rfl⟩
        by_cases hn' : n < 11
        · exact absurd ⟨d, n, hn, hn', hg⟩ hc
        · unfold code
          rw [List.take_of_length_le (by simp [codeLines]; omega)]
    · rw [if_neg (show ¬commitChanged t.headgo _ = false from hcc), hw.generate]
      exact ⟨_, d, rfl, rfl⟩
  obtain ⟨f, d', rfl, h2⟩ := h2
  rw [next_true h2]
  unfold install
  dsimp only
  rw [if_neg (by rw [hE.whole _ _ (head_hash h)]; decide), hw.install]

/-- C137: whatever failed before, an attempt of which all commands work and whose commit is known succeeds, if there are no
local changes and the generator was not stopped while it wrote the head.go of this very commit. -/
theorem C137_recovers_partial (hs : List (Env × Bytes)) (hg : GoodHistory hs) (t : Tree) (h : t.Good) (hcl : t.clean = true)
    (E : Env) (hE : E.Good) (commit : Bytes) (hm : commit ≠ masterName) (hw : E.Works commit)
    (hcut : ∀ c, (c = commit ∨ E.resolve commit = some c) → ¬Cut (run hs t) c) :
    (update E commit (run hs t)).2 = true := by
  obtain ⟨hG, hcl', -⟩ := run_spec hs hg t h
  revert hG hcl' hcut
  generalize run hs t = s
  intro hcut hG hcl'
  rw [hcl] at hcl'
  unfold update
  have h1 : status E s = (s, true) := by
    unfold status
    rw [hw.status, hcl']
    rfl
  rw [next_true h1]
  have h2 : checkout E E.master masterName s = ({ s with detached := none }, true) := by
    unfold checkout
    rw [hw.master, if_neg (by decide), if_pos rfl]
    rfl
  rw [next_true h2]
  have h3 : pull E { s with detached := none } = ({ s with detached := none, master := E.upstream }, true) := by
    unfold pull
    rw [hw.pull, if_neg (by decide)]
    rfl
  rw [next_true h3]
  have hG3 : ({ s with detached := none, master := E.upstream } : Tree).Good := ⟨hE.upstream, nofun, hG.headgo⟩
  unfold fromHead
  obtain ⟨d, hd⟩ := log_parses (E := E) hG3
  rw [if_neg (by rw [hw.log]; decide), hd]
  dsimp only
  by_cases hc : Tree.head { s with detached := none, master := E.upstream } ≠ commit
  · rw [if_pos hc]
    obtain ⟨c, hr⟩ := Option.isSome_iff_exists.mp hw.known
    have h4 : checkout E E.checkout commit { s with detached := none, master := E.upstream } = ({ s with detached := some c, master := E.upstream }, true) := by
      unfold checkout
      rw [hw.checkout, if_neg (by decide), if_neg hm, hr]
      rfl
    rw [next_true h4]
    have hG4 : ({ s with detached := some c, master := E.upstream } : Tree).Good := ⟨hE.upstream, fun x hx => by cases hx; exact hE.resolve _ _ hr, hG.headgo⟩
    have h5 := build_works E hE commit hw _ hG4 (hcut c (.inr hr))
    rw [next_true (t1 := (build E { s with detached := some c, master := E.upstream }).1) (by rw [← h5])]
    unfold checkout
    rw [hw.back, if_neg (by decide), if_pos rfl]
    rfl
  · rw [if_neg hc]
    have hc := Decidable.not_not.mp hc
    exact build_works E hE commit hw _ hG3 (by rw [hc]; exact hcut commit (.inl rfl))

/-- No head.go that breaks off. -/
def Whole (t : Tree) : Prop := ∀ f, t.headgo = some f → ∃ c d, f = code c d

theorem next_keeps {P : Tree → Prop} {f g : Step} (hf : ∀ t, P t → P (f t).1) (hg : ∀ t, P t → P (g t).1) : ∀ t, P t → P (Step.next f g t).1 := by
  intro t ht
  rcases next_cases f g t with ⟨t1, h1, h2⟩ | ⟨t1, h1, h2⟩
  · rw [h2]
    have := hf t ht
    rw [h1] at this
    exact hg t1 this
  · rw [h2]
    have := hf t ht
    rw [h1] at this
    exact this

/-- A step that leaves head.go and the programs alone. -/
def Idle (f : Step) : Prop := ∀ t, (f t).1.headgo = t.headgo ∧ (f t).1.bins = t.bins

theorem idle_status (E : Env) : Idle (status E) := fun _ => ⟨rfl, rfl⟩

theorem idle_checkout (E : Env) (o : Out) (n : Bytes) : Idle (checkout E o n) := by
  intro t
  unfold checkout
  by_cases h1 : o = .failed
  · rw [if_pos h1]; exact ⟨rfl, rfl⟩
  · rw [if_neg h1]
    by_cases h2 : n = masterName
    · rw [if_pos h2]; exact ⟨rfl, rfl⟩
    · rw [if_neg h2]
      cases E.resolve n <;> exact ⟨rfl, rfl⟩

theorem idle_pull (E : Env) : Idle (pull E) := by
  intro t
  unfold pull
  by_cases h1 : E.pull = .failed
  · rw [if_pos h1]; exact ⟨rfl, rfl⟩
  · rw [if_neg h1]; exact ⟨rfl, rfl⟩

theorem idle_gen (E : Env) : Idle (installGen E) := by
  intro t
  unfold installGen
  by_cases h1 : E.instGen = .failed
  · rw [if_pos h1]; exact ⟨rfl, rfl⟩
  · rw [if_neg h1]; exact ⟨rfl, rfl⟩

theorem Idle.whole {f : Step} (h : Idle f) : ∀ t, Whole t → Whole (f t).1 := by
  intro t ht g hg
  rw [(h t).1] at hg
  exact ht g hg

theorem whole_generate (E : Env) (hn : ∀ n, E.generate ≠ .stopped n) : ∀ t, Whole t → Whole (generate E t).1 := by
  intro t ht
  unfold generate
  cases parseHead (logOutput E t) with
  | none => exact ht
  | some p =>
    obtain ⟨c, d⟩ := p
    dsimp only
    by_cases hc : commitChanged t.headgo c = false
    · rw [if_pos hc]; exact ht
    · rw [if_neg hc]
      cases he : E.generate with
      | failed => exact ht
      | ok =>
        intro f hf
        cases hf
        exact ⟨c, d, rfl⟩
      | stopped n => exact absurd he (hn n)

theorem whole_install (E : Env) : ∀ t, Whole t → Whole (install E t).1 := by
  intro t ht
  have : (install E t).1.headgo = t.headgo := by
    unfold install
    cases hx : t.headgo with
    | none => exact hx
    | some f =>
      dsimp only
      by_cases hc : E.compiles f = false
      · rw [if_pos hc]; exact hx
      · rw [if_neg hc]
        cases E.install with
        | failed => exact hx
        | _ => rfl
  intro f hf
  rw [this] at hf
  exact ht f hf

theorem whole_update (E : Env) (hn : ∀ n, E.generate ≠ .stopped n) (commit : Bytes) : ∀ t, Whole t → Whole (update E commit t).1 := by
  have hb : ∀ t, Whole t → Whole (build E t).1 := next_keeps (idle_gen E).whole (next_keeps (whole_generate E hn) (whole_install E))
  refine next_keeps (idle_status E).whole (next_keeps (idle_checkout E _ _).whole (next_keeps (idle_pull E).whole ?_))
  intro t ht
  unfold fromHead
  by_cases hl : E.log ≠ .ok
  · rw [if_pos hl]; exact ht
  · rw [if_neg hl]
    cases parseHead (logOutput E t) with
    | none => exact ht
    | some p =>
      dsimp only
      by_cases hc : p.1 ≠ commit
      · rw [if_pos hc]
        exact next_keeps (idle_checkout E _ _).whole (next_keeps hb (idle_checkout E _ _).whole) t ht
      · rw [if_neg hc]
        exact hb t ht

theorem whole_not_cut {t : Tree} (h : Whole t) (c : Bytes) : ¬Cut t c := by
  rintro ⟨d, n, -, hn, hg⟩
  obtain ⟨c', d', he⟩ := h _ hg
  have h1 := congrArg (fun x => (splitNl x).length) he
  unfold code at h1
  rw [splitNl_join _ fun l hl => codeLines_nl c d l (List.mem_of_mem_take hl), splitNl_join _ fun l hl => codeLines_nl c' d' l hl] at h1
  simp [codeLines] at h1
  omega

/-- C137: if no attempt was stopped in the middle of writing head.go, then, whatever else failed or was interrupted, an attempt
of which all commands work and whose commit is known succeeds. -/
theorem C137_recovers (hs : List (Env × Bytes)) (hg : GoodHistory hs) (hn : ∀ x ∈ hs, ∀ n, x.1.generate ≠ .stopped n) (t : Tree) (h : t.Good) (hcl : t.clean = true)
    (hwh : ∀ f, t.headgo = some f → ∃ c d, f = code c d) (E : Env) (hE : E.Good) (commit : Bytes) (hm : commit ≠ masterName) (hw : E.Works commit) :
    (update E commit (run hs t)).2 = true := by
  refine C137_recovers_partial hs hg t h hcl E hE commit hm hw fun c _ => whole_not_cut ?_ c
  clear hg h hcl
  have : Whole t := hwh
  clear hwh
  induction hs generalizing t with
  | nil => exact this
  | cons x hs ih => exact ih (fun y hy => hn y (.tail _ hy)) _ (whole_update x.1 (hn x (.head _)) x.2 t this)

/-! ### a head.go that breaks off -/

theorem build_stuck (E : Env) (hE : E.Good) (c : Bytes) (hc : Hash c) (t : Tree) (hcut : Cut t c) (hh : t.head = c) :
    (build E t).1.headgo = t.headgo ∧ (build E t).1.bins = t.bins ∧ (build E t).2 = false := by
  unfold build
  have hig := idle_gen E t
  have hhead : (installGen E t).1.head = t.head := by
    unfold installGen
    by_cases h1 : E.instGen = .failed
    · rw [if_pos h1]
    · rw [if_neg h1]; rfl
  rcases next_cases (installGen E) (Step.next (generate E) (install E)) t with ⟨t1, h1, h2⟩ | ⟨t1, h1, h2⟩
  · rw [h1] at hig hhead
    dsimp only at hig hhead
    rw [h2]
    obtain ⟨d, n, hn1, hn2, hg⟩ := hcut
    have hg1 : t1.headgo = some (joinLines ((codeLines c d).take n)) := hig.1.trans hg
    have h3 : (generate E t1).1 = t1 := by
      unfold generate logOutput
      rw [hhead, hh, parse_log hc]
      dsimp only
      rw [if_pos]
      rw [hg1, changed_code hc]
      simp only [Bool.or_eq_false_iff, decide_eq_false_iff_not]
      exact ⟨by omega, by simp⟩
    have h4 : install E t1 = (t1, false) := by
      unfold install
      rw [hg1]
      dsimp only
      rw [if_pos (hE.cut c d n hn2)]
    rcases next_cases (generate E) (install E) t1 with ⟨t2, h5, h6⟩ | ⟨t2, h5, h6⟩
    · rw [h5] at h3
      replace h3 : t2 = t1 := h3
      rw [h6, h3, h4]
      exact ⟨hig.1, hig.2, rfl⟩
    · rw [h5] at h3
      replace h3 : t2 = t1 := h3
      rw [h6, h3]
      exact ⟨hig.1, hig.2, rfl⟩
  · rw [h1] at hig
    rw [h2]
    exact ⟨hig.1, hig.2, rfl⟩

/-- Nothing of head.go and the programs changes, and the step fails. -/
def Stays (f : Step) (t : Tree) : Prop := (f t).1.headgo = t.headgo ∧ (f t).1.bins = t.bins ∧ (f t).2 = false

theorem stays_next {f g : Step} (hf : Idle f) (t : Tree) (hg : ∀ t1, f t = (t1, true) → Stays g t1) : Stays (Step.next f g) t := by
  have hi := hf t
  unfold Stays
  rcases next_cases f g t with ⟨t1, h1, h2⟩ | ⟨t1, h1, h2⟩
  · rw [h1] at hi
    rw [h2]
    obtain ⟨h3, h4, h5⟩ := hg t1 h1
    exact ⟨h3.trans hi.1, h4.trans hi.2, h5⟩
  · rw [h1] at hi
    rw [h2]
    exact ⟨hi.1, hi.2, rfl⟩

theorem stays_first {f g : Step} (t : Tree) (h : Stays f t) : Stays (Step.next f g) t := by
  obtain ⟨h3, h4, h5⟩ := h
  unfold Stays
  rcases next_cases f g t with ⟨t1, h1, h2⟩ | ⟨t1, h1, h2⟩
  · rw [h1] at h5; cases h5
  · rw [h1] at h3 h4
    rw [h2]
    exact ⟨h3, h4, rfl⟩

theorem Cut.of_eq {t t1 : Tree} {c : Bytes} (h : Cut t c) (he : t1.headgo = t.headgo) : Cut t1 c := by
  obtain ⟨d, n, h1, h2, h3⟩ := h
  exact ⟨d, n, h1, h2, he.trans h3⟩

theorem update_stuck (E : Env) (hE : E.Good) (c : Bytes) (hm : c ≠ masterName) (hc : Hash c) (hr : ∀ x, E.resolve c = some x → x = c) (t : Tree) (h : t.Good)
    (hcut : Cut t c) : Stays (update E c) t := by
  unfold update
  refine stays_next (idle_status E) t fun t1 h1 => ?_
  have ht1 : t1 = t := (Prod.mk.inj h1).1.symm
  subst ht1
  refine stays_next (idle_checkout E _ _) t1 fun t2 h2 => ?_
  obtain ⟨d, h3, -, h5⟩ := checkout_master E E.master t1
  rw [h2] at h3 h5
  obtain ⟨rfl, -⟩ := h5 rfl
  replace h3 : t2 = { t1 with detached := none } := h3
  refine stays_next (idle_pull E) t2 fun t3 h6 => ?_
  have h7 : t3 = { t2 with master := E.upstream } := by
    unfold pull at h6
    by_cases hf : E.pull = .failed
    · rw [if_pos hf] at h6; cases h6
    · rw [if_neg hf] at h6; exact (Prod.mk.inj h6).1.symm
  have hG : t3.Good := by
    rw [h7, h3]
    exact ⟨hE.upstream, nofun, h.headgo⟩
  have hcut3 : Cut t3 c := hcut.of_eq (by rw [h7, h3])
  unfold Stays fromHead
  by_cases hl : E.log ≠ .ok
  · rw [if_pos hl]; exact ⟨rfl, rfl, rfl⟩
  · rw [if_neg hl]
    obtain ⟨d, hd⟩ := log_parses (E := E) hG
    rw [hd]
    dsimp only
    by_cases hcc : t3.head ≠ c
    · rw [if_pos hcc]
      refine stays_next (idle_checkout E _ _) t3 fun t4 h8 => stays_first _ ?_
      have hi := (idle_checkout E E.checkout c t3).1
      rw [h8] at hi
      rcases checkout_commit E E.checkout c hm t3 with h9 | ⟨x, h9, h10⟩
      · rw [h8] at h9; cases h9
      · rw [h8] at h10
        replace h10 : t4 = { t3 with detached := some x } := h10
        exact build_stuck E hE c hc t4 (hcut3.of_eq hi) (by rw [h10]; exact hr x h9)
    · rw [if_neg hcc]
      exact build_stuck E hE c hc t3 hcut3 (Decidable.not_not.mp hcc)

/-- C137, where the code disagrees: if mutegenerate is stopped while it writes head.go after the line with the commit, then
every further attempt for this commit fails, also if all commands work: mutegenerate takes the file to be up to date and leaves
it, and it does not compile. No program is replaced. -/
theorem C137_cut_off_violated (c : Bytes) (hc : Hash c) (t : Tree) (h : t.Good) (hcut : Cut t c)
    (hs : List (Env × Bytes)) (hg : ∀ x ∈ hs, x.1.Good ∧ x.2 = c ∧ ∀ y, x.1.resolve c = some y → y = c) :
    (run hs t).bins = t.bins ∧ ∀ E : Env, E.Good → (∀ y, E.resolve c = some y → y = c) → (update E c (run hs t)).2 = false := by
  have hm : c ≠ masterName := by
    rintro rfl
    have := hc.1
    revert this
    decide +kernel
  induction hs generalizing t with
  | nil => exact ⟨rfl, fun E hE hr => (update_stuck E hE c hm hc hr t h hcut).2.2⟩
  | cons x hs ih =>
    obtain ⟨h1, h2, h3⟩ := hg x (.head _)
    have hst := update_stuck x.1 h1 c hm hc h3 t h hcut
    have hG := (update_spec x.1 h1 c hm t h).1
    obtain ⟨h4, h5⟩ := ih _ hG (hcut.of_eq hst.1) fun y hy => hg y (.tail _ hy)
    show (run hs (update x.1 x.2 t).1).bins = _ ∧ _
    rw [h2]
    refine ⟨h4.trans hst.2.1, fun E hE hr => ?_⟩
    show (update E c (run hs (update x.1 x.2 t).1)).2 = _
    rw [h2]
    exact h5 E hE hr

/-! ### after updating -/

open Verif.Ctrl.Setup (decideUpdate released Update)
open Verif.Conf (Config)

/-- C137: after a successful attempt for the commit of the configuration, given in full, each program counts as up to date. -/
theorem C137_up_to_date (hs : List (Env × Bytes)) (hg : GoodHistory hs) (t : Tree) (h : t.Good) (E : Env) (hE : E.Good) (cfg : Config)
    (hm : (released cfg).commit ≠ masterName) (hr : ∀ y, E.resolve (released cfg).commit = some y → y = (released cfg).commit)
    (hok : (update E (released cfg).commit (run hs t)).2 = true) :
    ∀ b ∈ (update E (released cfg).commit (run hs t)).1.bins, ∃ c d, b.release = code c d ∧ ∀ parse, decideUpdate parse ⟨c, d⟩ cfg = .ok .upToDate := by
  intro b hb
  obtain ⟨-, ⟨c, -, h1, h2, -⟩, -⟩ := C137_installed hs hg t h E hE _ hm hok
  obtain ⟨-, d, h4⟩ := h2 b hb
  have hc : c = (released cfg).commit := h1.elim id (hr c)
  refine ⟨c, d, h4, fun parse => ?_⟩
  unfold decideUpdate
  rw [if_pos hc]

/-- C137, where the code disagrees: if the configuration names the commit by an abbreviation, the update succeeds, but the new
programs are not up to date: the next update builds the same commit again. -/
theorem C137_abbreviated_violated (hs : List (Env × Bytes)) (hg : GoodHistory hs) (t : Tree) (h : t.Good) (E : Env) (hE : E.Good) (cfg : Config)
    (hm : (released cfg).commit ≠ masterName) (ha : (released cfg).commit.length < 40)
    (hok : (update E (released cfg).commit (run hs t)).2 = true) :
    ∀ b ∈ (update E (released cfg).commit (run hs t)).1.bins, ∃ c d, b.release = code c d ∧
      ∀ parse r, parse d = some r → parse (released cfg).date = some r → decideUpdate parse ⟨c, d⟩ cfg = .ok (.build (released cfg).commit) := by
  intro b hb
  obtain ⟨-, ⟨c, h0, -, h2, -⟩, -⟩ := C137_installed hs hg t h E hE _ hm hok
  obtain ⟨-, d, h4⟩ := h2 b hb
  refine ⟨c, d, h4, fun parse r h5 h6 => ?_⟩
  have hc : c ≠ (released cfg).commit := by
    rintro rfl
    have := h0.1
    omega
  unfold decideUpdate
  rw [if_neg hc, h6]
  dsimp only
  rw [h5]
  dsimp only
  rw [if_neg (by omega)]

/-! ### the hypotheses can be met -/

def oldCommit : Bytes := List.replicate 40 97
def newCommit : Bytes := List.replicate 40 98
def tipCommit : Bytes := List.replicate 40 99
def shortName : Bytes := List.replicate 7 98
def someDate : Bytes := bs "2016-03-01T10:00:00Z"

/-- A repository with the new commit behind the head of the master branch. -/
def someEnv : Env where
  status := .ok
  master := .ok
  pull := .ok
  upstream := tipCommit
  log := .ok
  checkout := .ok
  instGen := .ok
  generate := .ok
  install := .ok
  back := .ok
  resolve := fun n => if n = newCommit ∨ n = shortName then some newCommit else none
  date := fun _ => someDate
  compiles := fun f => decide ((splitNl f).length = 12)

def someTree : Tree := ⟨oldCommit, none, true, some (code oldCommit someDate), oldCommit, [⟨oldCommit, code oldCommit someDate⟩, ⟨oldCommit, code oldCommit someDate⟩]⟩

theorem old_hash : Hash oldCommit := by unfold Hash; decide +kernel
theorem new_hash : Hash newCommit := by unfold Hash; decide +kernel
theorem tip_hash : Hash tipCommit := by unfold Hash; decide +kernel

theorem someEnv_good : someEnv.Good where
  upstream := tip_hash
  resolve := by
    intro n c hc
    unfold someEnv at hc
    dsimp only at hc
    by_cases h : n = newCommit ∨ n = shortName
    · rw [if_pos h] at hc; cases hc; exact new_hash
    · rw [if_neg h] at hc; cases hc
  whole := by
    intro c d _
    show decide ((splitNl _).length = 12) = true
    unfold code
    rw [splitNl_join _ fun l hl => codeLines_nl c d l hl]
    rfl
  cut := by
    intro c d n hn
    show decide ((splitNl _).length = 12) = false
    rw [splitNl_join _ fun l hl => codeLines_nl c d l (List.mem_of_mem_take hl)]
    simp [codeLines]
    omega

theorem good_with (g i : Out) : ({ someEnv with generate := g, install := i } : Env).Good :=
  ⟨someEnv_good.upstream, someEnv_good.resolve, someEnv_good.whole, someEnv_good.cut⟩

theorem someEnv_works : someEnv.Works newCommit := ⟨rfl, rfl, rfl, rfl, rfl, rfl, rfl, rfl, rfl, by decide +kernel⟩

theorem someTree_good : someTree.Good where
  master := old_hash
  detached := nofun
  headgo := by
    intro f hf
    cases hf
    exact ⟨oldCommit, someDate, 11, old_hash, rfl⟩

/-- An attempt in which the installation is interrupted after one program. -/
def interrupted : List (Env × Bytes) := [({ someEnv with install := .stopped 1 }, newCommit)]

theorem interrupted_good : GoodHistory interrupted := by
  intro x hx
  obtain rfl := List.mem_singleton.mp hx
  exact ⟨good_with .ok _, by decide +kernel⟩

/-- An attempt in which mutegenerate is interrupted after nine lines. -/
def halfWritten : List (Env × Bytes) := [({ someEnv with generate := .stopped 9 }, newCommit)]

theorem halfWritten_good : GoodHistory halfWritten := by
  intro x hx
  obtain rfl := List.mem_singleton.mp hx
  exact ⟨good_with _ .ok, by decide +kernel⟩

/-- C137, where the code disagrees: an interrupted attempt leaves programs of different releases. -/
theorem C137_mixed_violated : ∃ (E : Env) (commit : Bytes) (t : Tree), E.Good ∧ t.Good ∧ t.clean = true ∧ (∀ b ∈ t.bins, ∀ b' ∈ t.bins, b.source = b'.source) ∧
    ∃ b ∈ (update E commit t).1.bins, ∃ b' ∈ (update E commit t).1.bins, b.source ≠ b'.source :=
  ⟨{ someEnv with install := .stopped 1 }, newCommit, someTree, good_with .ok _, someTree_good, rfl, by decide +kernel,
    ⟨newCommit, code newCommit someDate⟩, by decide +kernel, ⟨oldCommit, code oldCommit someDate⟩, by decide +kernel, by decide +kernel⟩

/-- After an interrupted installation the next attempt succeeds: `C137_installed`, `C137_recovers`. -/
example : (update someEnv newCommit (run interrupted someTree)).2 = true :=
  C137_recovers _ interrupted_good (by intro x hx n; obtain rfl := List.mem_singleton.mp hx; nofun) _ someTree_good rfl
    (by intro f hf; cases hf; exact ⟨_, _, rfl⟩) _ someEnv_good _ (by decide +kernel) someEnv_works

example : (run interrupted someTree).bins = [⟨newCommit, code newCommit someDate⟩, ⟨oldCommit, code oldCommit someDate⟩] ∧
    (run interrupted someTree).detached = some newCommit ∧
    (update someEnv newCommit (run interrupted someTree)).1.bins = [⟨newCommit, code newCommit someDate⟩, ⟨newCommit, code newCommit someDate⟩] ∧
    (update someEnv newCommit (run interrupted someTree)).1.detached = none ∧ (update someEnv newCommit (run interrupted someTree)).1.master = tipCommit := by
  decide +kernel

/-- A half-written head.go blocks the commit, not the others: `C137_cut_off_violated`, `C137_recovers_partial`. -/
theorem halfWritten_cut : Cut (run halfWritten someTree) newCommit := ⟨someDate, 9, by decide, by decide, by decide +kernel⟩

example : (update someEnv newCommit (run [] (run halfWritten someTree))).2 = false :=
  (C137_cut_off_violated newCommit new_hash (run halfWritten someTree) (run_spec _ halfWritten_good _ someTree_good).1 halfWritten_cut []
    (fun _ h => absurd h List.not_mem_nil)).2 someEnv someEnv_good
    fun _ hy => (Option.some.inj ((show someEnv.resolve newCommit = some newCommit by decide +kernel).symm.trans hy)).symm

example : (update someEnv tipCommit (run halfWritten someTree)).2 = true := by decide +kernel

example : (update someEnv newCommit { someTree with clean := false }).2 = false := by rw [C137_local_changes _ _ _ rfl]

def cfgOf (commit : Bytes) : Config := ⟨[], none, some [(Setup.keyCommit, commit), (Setup.keyDate, someDate)], 0, 0⟩

example : (released (cfgOf newCommit)).commit = newCommit ∧ (released (cfgOf newCommit)).commit ≠ masterName ∧
    (update someEnv (released (cfgOf newCommit)).commit (run [] someTree)).2 = true := by decide +kernel

example : (released (cfgOf shortName)).commit.length < 40 ∧ (released (cfgOf shortName)).commit ≠ masterName ∧
    (update someEnv (released (cfgOf shortName)).commit (run [] someTree)).2 = true := by decide +kernel

end Verif.Ctrl.Source

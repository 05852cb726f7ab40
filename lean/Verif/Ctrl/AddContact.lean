/-
How a new contact is looked up: the dialogue of `contact add` with a process `mutecrypt` over pipes
(ctrlengine/contact.go:33-196, 240-278), and the commands of `mutecrypt` it uses (cryptengine/hashchain.go, keyinit.go).

The process is the loop of `Crypt/Loop`; by C125 it executes the lines written to it one after the other, whenever they
arrive. The pipe for the commands is never full and its reader stays open in the engine, so that writing never fails.
Starting the process and writing the passphrase succeed. A process that ends during a command writes nothing (a panic
writes its trace, which the engine takes for an error).
-/
import Verif.Crypt.Loop
import Verif.Crypt.Props
import Verif.Conf.Props
import Verif.Ctrl.Contact
import Verif.Ident.Props
import Verif.Crypt.Toy

set_option autoImplicit false

namespace Verif.Ctrl.AddContact
open Verif.Crypt.Loop
open Verif.Flags (Settings Word)
open Verif.Ctrl.Scan (dropCR otherLines)

def txtHashchain : Bytes := "hashchain".toUTF8.data.toList
def txtKeyinit : Bytes := "keyinit".toUTF8.data.toList
def txtSync : Bytes := "sync".toUTF8.data.toList
def txtValidate : Bytes := "validate".toUTF8.data.toList
def txtSearch : Bytes := "search".toUTF8.data.toList
def txtFetch : Bytes := "fetch".toUTF8.data.toList
def txtDomain : Bytes := "--domain".toUTF8.data.toList
def txtId : Bytes := "--id".toUTF8.data.toList
def txtKeyserverAt : Bytes := "keyserver@".toUTF8.data.toList

/-- `strings.Join` with blanks of a command of four words. -/
def line (a b c d : Bytes) : Bytes := a ++ 32 :: b ++ 32 :: c ++ 32 :: d

/-- The lines written and the answers expected (contact.go:69-194). -/
def steps (id domain : Bytes) : List (Bytes × Bytes) :=
  [(line txtHashchain txtSync txtDomain domain, txtReady), (line txtHashchain txtValidate txtDomain domain, txtReady),
    (line txtHashchain txtSearch txtId (txtKeyserverAt ++ domain), txtReady), (line txtHashchain txtSearch txtId id, txtReady),
    (line txtKeyinit txtFetch txtId id, txtReady), (txtQuit, txtQuitting)]

/-- How the dialogue ends; `hang` is a read that never returns. -/
inductive Outcome
  | ok
  | error (e : Bytes)
  | hang
  deriving DecidableEq

variable {σ : Type}

/-- What the process wrote to its standard error: `Fprintln` of the lines. -/
def text (st : St σ) : Bytes := st.status.flatMap fun l => l ++ [10]

/-- `cmd.Wait` (contact.go:195): it fails unless the process ended with status 0. A process that was interrupted does
(`clean`; util/interrupt/interrupt.go:30-43, cmd/mutecrypt/mutecrypt.go:24-57). -/
def wait (clean : Bool) : End → Outcome
  | .quit => .ok
  | .eof => .hang
  | .failed => .error []
  | .died => if clean then .ok else .error []

/-- `mutecryptAddContact` (contact.go:69-195). The text `written` has gone to the process and `k` lines of its answers were read.
`for scanner.Scan() { ...; break }` goes on if there is no line and the process has closed its end. -/
def dialogue (M : Machine σ) (clean : Bool) (st : St σ) : Bytes → List (Bytes × Bytes) → Nat → Outcome
  | written, [], _ => wait clean (script M [] (lines written) st).2
  | written, (l, want) :: todo, k =>
    let r := script M [] (lines (written ++ l ++ [10])) st
    match (lines (text r.1))[k]? with
    | some s =>
      if 65535 < s.length then .error []
      else if dropCR s = want then dialogue M clean st (written ++ l ++ [10]) todo (k + 1)
      else .error (dropCR s)
    | none => if r.2 = .eof then .hang else dialogue M clean st (written ++ l ++ [10]) todo k

/-- `mutecryptAddContact` (contact.go:33-196). -/
def fetchContact (M : Machine σ) (clean : Bool) (w : σ) (id domain : Bytes) : Outcome := dialogue M clean ⟨w, [], []⟩ [] (steps id domain) 0

/-- The answers of the key servers to a command and the texts of the errors. Texts of errors of a call may come from the server:
`JSONRPCRequest` returns its message as it is (util/jsonclient/jsonclient.go:44-82). -/
structure Answers where
  last : Option Crypt.LastReply
  entries : UInt64 → UInt64 → Option Crypt.EntriesReply
  uid : UInt64 → Bytes → Option Uid.Reply
  keyInit : Bytes → Option Uid.KeyInit
  text : Crypt.CErr → Bytes

/-- What `mutecrypt` works on: the key database and the number of commands run so far. -/
abbrev World := Crypt.DB × Nat

/-- A command has ended: `ce.err` is set (cryptengine.go:131-146); a panic ends the process. -/
def ended (a : Answers) (n : Nat) (r : Crypt.DB × Verif.Res Crypt.CErr Unit) : World × Crypt.Loop.Res :=
  ((r.1, n + 1), match r.2 with
    | .ok _ => .done none
    | .err e => .done (some (a.text e))
    | .panic => .died)

/-- The commands of `mutecrypt` that are used here (cryptengine.go:597-618, 643-712); `prepare` may fail, and `other` are the
other commands. -/
def engine (P : Uid.Prims) (I : Crypt.Ids) (srv : Nat → Answers) (prepare : Nat → Option Bytes) (known : Bytes → Bool)
    (other : Settings → List Bytes → World → World × Crypt.Loop.Res) (usage unknown : List Bytes → Bytes) : Machine World where
  known n := n = txtHashchain || n = txtKeyinit || known n
  exec S c w :=
    match c with
    | [a, b, o, v] =>
      if a = txtHashchain ∧ b = txtSync ∧ o = txtDomain then
        match prepare w.2 with
        | some e => ((w.1, w.2 + 1), .refused e)
        | none => ended (srv w.2) w.2 (Crypt.sync I v (srv w.2).last (srv w.2).entries w.1)
      else if a = txtHashchain ∧ b = txtValidate ∧ o = txtDomain then
        match prepare w.2 with
        | some e => ((w.1, w.2 + 1), .refused e)
        | none => ended (srv w.2) w.2 (w.1, Crypt.validate P I w.1 v)
      else if a = txtHashchain ∧ b = txtSearch ∧ o = txtId then
        match prepare w.2 with
        | some e => ((w.1, w.2 + 1), .refused e)
        | none => ended (srv w.2) w.2 (Crypt.search P I (srv w.2).uid v false w.1)
      else if a = txtKeyinit ∧ b = txtFetch ∧ o = txtId then
        match prepare w.2 with
        | some e => ((w.1, w.2 + 1), .refused e)
        | none => ended (srv w.2) w.2 (Crypt.fetchKeyInit P I v (srv w.2).keyInit w.1)
      else other S c w
    | _ => other S c w
  usage := usage
  unknown := unknown
  scanner := []

/-! ### Specification -/

/-- The first line of an error is not "READY." -/
def Safe (e : Bytes) : Prop := dropCR (e.takeWhile (· ≠ 10)) ≠ txtReady

/-- No error of these commands looks like a success. -/
def SafeErrors (M : Machine σ) (cs : List (List Bytes)) : Prop :=
  ∀ c ∈ cs, ∀ w e, ((M.exec [] c w).2 = .refused e ∨ (M.exec [] c w).2 = .done (some e)) → Safe e

/-- A word: no blanks, not empty, short. -/
structure Argument (a : Bytes) : Prop where
  ne : a ≠ []
  plain : ∀ c ∈ a, c ≠ 32 ∧ Conf.isSpace c = false
  short : a.length ≤ 1000

/-- The commands succeed one after the other. -/
inductive AllDone (M : Machine σ) : List (List Bytes) → σ → σ → Prop
  | nil (w : σ) : AllDone M [] w w
  | cons {c : List Bytes} {cs : List (List Bytes)} {w w1 w2 : σ} (h : M.exec [] c w = (w1, .done none)) (t : AllDone M cs w1 w2) : AllDone M (c :: cs) w w2

/-! ### Proofs -/

theorem lines_app (a b : Bytes) : lines (a ++ 10 :: b) = lines (a ++ [10]) ++ lines b := by
  induction a with
  | nil => simp [lines]
  | cons c a ih =>
    rw [List.cons_append, List.cons_append, lines, lines, ih]
    by_cases hc : c = 10
    · rw [if_pos hc, if_pos hc, List.cons_append]
    · rw [if_neg hc, if_neg hc]
      have : ∃ l ls, lines (a ++ [10]) = l :: ls := List.exists_cons_of_ne_nil (by rw [lines_cons (by simp)]; simp)
      obtain ⟨l, ls, h⟩ := this
      rw [h]
      simp

theorem lines_one {l : Bytes} (h : 10 ∉ l) : lines (l ++ [10]) = [l] := by
  rw [lines_cons (by simp)]
  have h1 : ∀ c ∈ l, decide (c ≠ 10) = true := fun c hc => by
    simp only [ne_eq, decide_not, Bool.not_eq_true', decide_eq_false_iff_not]
    rintro rfl
    exact h hc
  have e1 : (l ++ [10]).takeWhile (fun x => decide (x ≠ 10)) = l := by
    rw [List.takeWhile_append_of_pos h1, List.takeWhile_cons_of_neg (by decide), List.append_nil]
  have e2 : otherLines (l ++ [10]) = [] := by
    unfold otherLines
    rw [List.dropWhile_append_of_pos h1]
    rfl
  rw [e1, e2]
  rfl

theorem script_app (M : Machine σ) (S : Settings) : ∀ (a b : List Bytes) (st : St σ),
    script M S (a ++ b) st = if (script M S a st).2 = .eof then script M S b (script M S a st).1 else script M S a st := by
  intro a
  induction a with
  | nil => intro b st; simp [script]
  | cons l a ih =>
    intro b st
    rw [List.cons_append, script, script]
    split
    · simp
    · split
      · exact ih b st
      · split
        · simp
        · rcases single M S (words l) st with ⟨st', e, r⟩
          cases r with
          | died => simp
          | refused _ => exact ih b _
          | done _ => exact ih b _

theorem text_lines (ls : List Bytes) (h : ∀ l ∈ ls, 10 ∉ l) (more : Bytes) : lines ((ls.flatMap fun l => l ++ [10]) ++ more) = ls ++ lines more := by
  induction ls with
  | nil => rfl
  | cons l ls ih =>
    rw [List.flatMap_cons, List.append_assoc, List.append_assoc, List.singleton_append, lines_app, lines_one (h l (List.mem_cons_self ..)),
      ih fun x hx => h x (List.mem_cons_of_mem _ hx)]
    rfl

theorem ready_plain : (10 : UInt8) ∉ txtReady := by decide +kernel

/-- A line of the dialogue. -/
structure Cmd (M : Machine σ) (l : Bytes) (c : List Bytes) : Prop where
  words : words l = c
  plain : 10 ∉ l
  ne : dropCR l ≠ []
  notQuit : c ≠ [txtQuit]
  short : l.length ≤ 65535
  known : M.known (c.headD []) = true

theorem script_cmd (M : Machine σ) {l : Bytes} {c : List Bytes} (h : Cmd M l c) (st : St σ) :
    script M [] [l] st = match (M.exec [] c st.world).2 with
      | .refused e => (({ st with world := (M.exec [] c st.world).1, ran := st.ran ++ [([], c)] } : St σ).say [e], .eof)
      | .done e => (({ st with world := (M.exec [] c st.world).1, ran := st.ran ++ [([], c)] } : St σ).say (e.toList ++ [txtReady]), .eof)
      | .died => (({ st with world := (M.exec [] c st.world).1, ran := st.ran ++ [([], c)] } : St σ), .died) := by
  have hs := h.short
  rw [script, if_neg (by omega), if_neg h.ne, h.words, if_neg h.notQuit]
  unfold single
  rw [if_pos h.known]
  simp only []
  cases (M.exec [] c st.world).2 <;> rfl

/-- The rest of the dialogue with a process that ended. -/
theorem dialogue_dead (M : Machine σ) (st : St σ) (e : End) (he : e ≠ .eof) : ∀ (todo : List (Bytes × Bytes)) (written : Bytes) (k : Nat) (clean : Bool),
    (script M [] (lines written) st).2 = e → (written = [] ∨ ∃ a, written = a ++ [10]) → (lines (text (script M [] (lines written) st).1)).length ≤ k →
    dialogue M clean st written todo k = wait clean e := by
  intro todo
  induction todo with
  | nil => intro written k clean h _ _; rw [dialogue, h]
  | cons x todo ih =>
    intro written k clean h hw hk
    obtain ⟨l, want⟩ := x
    have hs : script M [] (lines (written ++ l ++ [10])) st = script M [] (lines written) st := by
      rcases hw with rfl | ⟨a, rfl⟩
      · simp [lines, script] at h
        exact absurd h.symm he
      · have : a ++ [10] ++ l ++ [10] = a ++ 10 :: (l ++ [10]) := by simp
        rw [this, lines_app, script_app, if_neg]
        rw [h]; exact he
    rw [dialogue]
    simp only [hs]
    rw [List.getElem?_eq_none hk]
    simp only []
    rw [if_neg (by rw [h]; exact he)]
    exact ih _ _ _ (by rw [hs]; exact h) (.inr ⟨_, rfl⟩) (by rw [hs]; exact hk)

/-- The state of the dialogue between two commands: the answers were read and were all "READY." -/
structure Between (M : Machine σ) (st : St σ) (written : Bytes) (k : Nat) (w : σ) : Prop where
  alive : (script M [] (lines written) st).2 = .eof
  status : (script M [] (lines written) st).1.status = List.replicate k txtReady
  world : (script M [] (lines written) st).1.world = w
  ends : written = [] ∨ ∃ a, written = a ++ [10]

theorem written_script (M : Machine σ) {st : St σ} {written : Bytes} {k : Nat} {w : σ} (h : Between M st written k w) {l : Bytes} (hl : 10 ∉ l) :
    script M [] (lines (written ++ l ++ [10])) st = script M [] [l] (script M [] (lines written) st).1 := by
  have : lines (written ++ l ++ [10]) = lines written ++ [l] := by
    rcases h.ends with rfl | ⟨a, rfl⟩
    · simpa [lines] using lines_one hl
    · have : a ++ [10] ++ l ++ [10] = a ++ 10 :: (l ++ [10]) := by simp
      rw [this, lines_app, lines_one hl]
  rw [this, script_app, if_pos h.alive]

theorem text_replicate (k : Nat) (more : List Bytes) : lines ((List.replicate k txtReady ++ more).flatMap fun l => l ++ [10]) =
    List.replicate k txtReady ++ lines (more.flatMap fun l => l ++ [10]) := by
  rw [List.flatMap_append, text_lines]
  intro l hl
  rw [List.eq_of_mem_replicate hl]
  exact ready_plain

theorem dialogue_cmds (M : Machine σ) (st : St σ) : ∀ (todo : List (Bytes × List Bytes)) (_ : ∀ x ∈ todo, Cmd M x.1 x.2) (_ : SafeErrors M (todo.map (·.2))) (written : Bytes) (k : Nat)
    (w : σ), Between M st written k w →
    (dialogue M false st written (todo.map (fun x => (x.1, txtReady)) ++ [(txtQuit, txtQuitting)]) k = .ok ∧ ∃ w', AllDone M (todo.map (·.2)) w w') ∨
    ((∃ e, dialogue M false st written (todo.map (fun x => (x.1, txtReady)) ++ [(txtQuit, txtQuitting)]) k = .error e) ∧ ¬∃ w', AllDone M (todo.map (·.2)) w w') := by
  intro todo
  induction todo with
  | nil =>
    intro _ _ written k w hb
    left
    refine ⟨?_, w, .nil w⟩
    have hs := written_script M hb (l := txtQuit) (by decide +kernel)
    have hq : script M [] [txtQuit] (script M [] (lines written) st).1 = ((script M [] (lines written) st).1.say [txtQuitting], .quit) := by
      rw [script, if_neg (by decide +kernel), if_neg (by decide +kernel), if_pos (by decide +kernel)]
    rw [hq] at hs
    rw [List.map_nil, List.nil_append, dialogue]
    simp only [hs]
    have ht : lines (text ((script M [] (lines written) st).1.say [txtQuitting])) = List.replicate k txtReady ++ [txtQuitting] := by
      unfold text St.say
      simp only [hb.status]
      rw [text_replicate]
      congr 1
    rw [ht, List.getElem?_append_right (by simp)]
    simp only [List.length_replicate, Nat.sub_self, List.getElem?_cons_zero]
    rw [if_neg (by decide +kernel), if_pos (by decide +kernel), dialogue, hs]
    rfl
  | cons x todo ih =>
    intro hc hM written k w hb
    obtain ⟨l, c⟩ := x
    have hx := hc _ (List.mem_cons_self ..)
    have hrest := fun y hy => hc y (List.mem_cons_of_mem _ hy)
    have hs := written_script M hb hx.plain
    rw [script_cmd M hx] at hs
    rw [hb.world] at hs
    rw [List.map_cons, List.cons_append, List.map_cons, dialogue]
    have hex := hM c (List.mem_cons_self ..) w
    have hw' : written ++ l ++ [10] = [] ∨ ∃ a, written ++ l ++ [10] = a ++ [10] := .inr ⟨_, rfl⟩
    cases hr : M.exec [] c w with
    | mk w1 r =>
      rw [hr] at hs hex
      have fails : ∀ (e : Bytes) (more : List Bytes), Safe e → ∃ s, (lines ((List.replicate k txtReady ++ e :: more).flatMap fun l => l ++ [10]))[k]? = some s ∧ dropCR s ≠ txtReady := by
        intro e more he
        rw [text_replicate, List.getElem?_append_right (by simp), List.length_replicate, Nat.sub_self, List.flatMap_cons]
        rw [List.append_assoc, List.singleton_append, lines_cons (by simp)]
        refine ⟨_, rfl, ?_⟩
        have : (e ++ 10 :: (more.flatMap fun l => l ++ [10])).takeWhile (fun x => decide (x ≠ 10)) = e.takeWhile (fun x => decide (x ≠ 10)) := by
          clear he
          induction e with
          | nil => exact List.takeWhile_cons_of_neg (by decide)
          | cons d e ih =>
            rw [List.cons_append, List.takeWhile_cons, List.takeWhile_cons, ih]
        rw [this]
        exact he
      cases r with
      | refused e =>
        right
        simp only at hs
        obtain ⟨s, h1, h2⟩ := fails e [] (hex e (.inl rfl))
        refine ⟨?_, ?_⟩
        · simp only [hs, text, St.say, hb.status, h1]
          split
          · exact ⟨_, rfl⟩
          · exact ⟨_, rfl⟩
        · rintro ⟨w', ha⟩
          cases ha with
          | cons h _ => rw [hr] at h; cases h
      | died =>
        right
        simp only at hs
        refine ⟨⟨[], ?_⟩, ?_⟩
        · simp only [hs, text, hb.status]
          have := text_replicate k []
          simp only [List.append_nil, List.flatMap_nil, lines] at this
          rw [this, List.getElem?_eq_none (by simp)]
          simp only []
          rw [if_neg (by decide)]
          have hd := dialogue_dead M st .died (by decide) (todo.map (fun x => (x.1, txtReady)) ++ [(txtQuit, txtQuitting)]) (written ++ l ++ [10]) k false
            (by rw [hs]) hw' (by rw [hs]; simp only [text, hb.status]; rw [this]; simp)
          rw [hd]
          rfl
        · rintro ⟨w', ha⟩
          cases ha with
          | cons h _ => rw [hr] at h; cases h
      | done e =>
        cases e with
        | some e =>
          right
          simp only [Option.toList] at hs
          obtain ⟨s, h1, h2⟩ := fails e [txtReady] (hex e (.inr rfl))
          refine ⟨?_, ?_⟩
          · simp only [hs, text, St.say, hb.status, List.cons_append, List.nil_append, h1]
            split
            · exact ⟨_, rfl⟩
            · exact ⟨_, rfl⟩
          · rintro ⟨w', ha⟩
            cases ha with
            | cons h _ => rw [hr] at h; cases h
        | none =>
          simp only [Option.toList, List.nil_append] at hs
          have hb' : Between M st (written ++ l ++ [10]) (k + 1) w1 := by
            refine ⟨by rw [hs], ?_, by rw [hs]; rfl, hw'⟩
            rw [hs]
            simp only [St.say, hb.status]
            rw [List.replicate_succ']
          have ht : (lines (text (script M [] (lines (written ++ l ++ [10])) st).1))[k]? = some txtReady := by
            unfold text
            rw [hb'.status]
            have := text_replicate (k + 1) []
            simp only [List.append_nil, List.flatMap_nil, lines] at this
            rw [this, List.getElem?_replicate, if_pos (by omega)]
          have h1 := ih hrest (fun y hy => hM y (List.mem_cons_of_mem _ hy)) _ _ _ hb'
          simp only [ht]
          rw [if_neg (by decide +kernel), if_pos (by decide +kernel)]
          rcases h1 with ⟨h1, w', h2⟩ | ⟨h1, h2⟩
          · exact .inl ⟨h1, w', .cons hr h2⟩
          · refine .inr ⟨h1, ?_⟩
            rintro ⟨w', ha⟩
            cases ha with
            | cons h t =>
              rw [hr] at h
              cases h
              exact h2 ⟨w', t⟩

theorem words_line {a b c d : Bytes} (ha : Argument a) (hb : Argument b) (hc : Argument c) (hd : Argument d) : words (line a b c d) = [a, b, c, d] := by
  have hr : dropCR (line a b c d) = line a b c d := by
    unfold dropCR
    rw [if_neg]
    intro h
    unfold line at h
    simp only [List.append_assoc, List.cons_append] at h
    rw [List.getLast?_append, List.getLast?_cons, List.getLast?_append, List.getLast?_cons, List.getLast?_append, List.getLast?_cons] at h
    simp only [Option.some_or, Option.some.injEq] at h
    cases hl : d.getLast? with
    | none => exact hd.ne (List.getLast?_eq_none_iff.1 hl)
    | some x =>
      rw [hl] at h
      simp at h
      subst h
      exact absurd (hd.plain 13 (List.mem_of_getLast? hl)).2 (by decide)
  unfold words
  rw [hr]
  unfold line
  simp only [List.append_assoc, List.cons_append]
  rw [Conf.fields_sep 32 a _ ha.ne ha.plain, Conf.fields_sep 32 b _ hb.ne hb.plain, Conf.fields_sep 32 c _ hc.ne hc.plain, Conf.fields_last 32 d hd.ne hd.plain]

theorem argument_of (a : Bytes) (h : a ≠ [] ∧ a.length ≤ 1000 ∧ a.all (fun c => c != 32 && !Conf.isSpace c) = true) : Argument a :=
  ⟨h.1, fun c hc => by have := List.all_eq_true.1 h.2.2 c hc; simpa using this, h.2.1⟩

theorem cmd_line {M : Machine σ} {a b c d : Bytes} (ha : Argument a) (hb : Argument b) (hc : Argument c) (hd : Argument d) (hk : M.known a = true) :
    Cmd M (line a b c d) [a, b, c, d] where
  words := words_line ha hb hc hd
  plain := by
    intro h
    have pl : ∀ {x : Bytes}, Argument x → (10 : UInt8) ∉ x := fun hx h => absurd (hx.plain 10 h).2 (by decide)
    unfold line at h
    simp only [List.append_assoc, List.cons_append, List.mem_append, List.mem_cons] at h
    rcases h with h | h | h | h | h | h | h
    · exact pl ha h
    · exact absurd h (by decide)
    · exact pl hb h
    · exact absurd h (by decide)
    · exact pl hc h
    · exact absurd h (by decide)
    · exact pl hd h
  ne := by
    intro h
    have := words_line ha hb hc hd
    unfold words at this
    rw [h] at this
    cases this
  notQuit := by intro h; cases h
  short := by
    have h1 := ha.short
    have h2 := hb.short
    have h3 := hc.short
    have h4 := hd.short
    unfold line
    simp only [List.append_assoc, List.cons_append, List.length_append, List.length_cons]
    omega
  known := hk

theorem arg_keyserver {d : Bytes} (hd : Argument d) (hl : d.length ≤ 900) : Argument (txtKeyserverAt ++ d) where
  ne := by simp [hd.ne]
  plain c hc := by
    rcases List.mem_append.1 hc with h | h
    · have : txtKeyserverAt.all (fun c => c != 32 && !Conf.isSpace c) = true := by decide +kernel
      have := List.all_eq_true.1 this c h
      simpa using this
    · exact hd.plain c h
  short := by
    have : txtKeyserverAt.length = 10 := by decide +kernel
    simp only [List.length_append]
    omega

/-- The lines of the dialogue with their words. -/
def todo (id domain : Bytes) : List (Bytes × List Bytes) :=
  [(line txtHashchain txtSync txtDomain domain, [txtHashchain, txtSync, txtDomain, domain]),
    (line txtHashchain txtValidate txtDomain domain, [txtHashchain, txtValidate, txtDomain, domain]),
    (line txtHashchain txtSearch txtId (txtKeyserverAt ++ domain), [txtHashchain, txtSearch, txtId, txtKeyserverAt ++ domain]),
    (line txtHashchain txtSearch txtId id, [txtHashchain, txtSearch, txtId, id]), (line txtKeyinit txtFetch txtId id, [txtKeyinit, txtFetch, txtId, id])]

theorem todo_steps (id domain : Bytes) : steps id domain = (todo id domain).map (fun x => (x.1, txtReady)) ++ [(txtQuit, txtQuitting)] := rfl

theorem todo_cmd {M : Machine σ} {id domain : Bytes} (hi : Argument id) (hd : Argument domain) (hl : domain.length ≤ 900) (h1 : M.known txtHashchain = true)
    (h2 : M.known txtKeyinit = true) : ∀ x ∈ todo id domain, Cmd M x.1 x.2 := by
  have a1 : Argument txtHashchain := argument_of _ (by decide +kernel)
  have a2 : Argument txtKeyinit := argument_of _ (by decide +kernel)
  have a3 : Argument txtSync := argument_of _ (by decide +kernel)
  have a4 : Argument txtValidate := argument_of _ (by decide +kernel)
  have a5 : Argument txtSearch := argument_of _ (by decide +kernel)
  have a6 : Argument txtFetch := argument_of _ (by decide +kernel)
  have a7 : Argument txtDomain := argument_of _ (by decide +kernel)
  have a8 : Argument txtId := argument_of _ (by decide +kernel)
  intro x hx
  simp only [todo, List.mem_cons, List.not_mem_nil, or_false] at hx
  rcases hx with rfl | rfl | rfl | rfl | rfl
  · exact cmd_line a1 a3 a7 hd h1
  · exact cmd_line a1 a4 a7 hd h1
  · exact cmd_line a1 a5 a8 (arg_keyserver hd hl) h1
  · exact cmd_line a1 a5 a8 hi h1
  · exact cmd_line a2 a6 a8 hi h2

/-- The dialogue ends, and it succeeds exactly if the five commands do. -/
theorem fetchContact_iff (M : Machine σ) (w : σ) {id domain : Bytes} (hi : Argument id) (hd : Argument domain) (hl : domain.length ≤ 900)
    (h1 : M.known txtHashchain = true) (h2 : M.known txtKeyinit = true) (hs : SafeErrors M ((todo id domain).map (·.2))) :
    (fetchContact M false w id domain = .ok ↔ ∃ w', AllDone M ((todo id domain).map (·.2)) w w') ∧ fetchContact M false w id domain ≠ .hang := by
  have hb : Between M ⟨w, [], []⟩ [] 0 w := ⟨rfl, rfl, rfl, .inl rfl⟩
  have := dialogue_cmds M ⟨w, [], []⟩ (todo id domain) (todo_cmd hi hd hl h1 h2) hs [] 0 w hb
  unfold fetchContact
  rw [todo_steps]
  rcases this with ⟨a, b⟩ | ⟨⟨e, a⟩, b⟩
  · exact ⟨⟨fun _ => b, fun _ => a⟩, by rw [a]; simp⟩
  · rw [a]
    exact ⟨⟨fun h => by simp at h, fun h => absurd h b⟩, by simp⟩

/-! ### C130 -/

section
variable (P : Uid.Prims) (I : Crypt.Ids) (srv : Nat → Answers) (prepare : Nat → Option Bytes) (known : Bytes → Bool)
  (other : Settings → List Bytes → World → World × Crypt.Loop.Res) (usage unknown : List Bytes → Bytes)

/-- No error text looks like a success. -/
structure SafeTexts : Prop where
  text : ∀ n e, Safe ((srv n).text e)
  prepare : ∀ n e, prepare n = some e → Safe e

theorem ended_safe {srv : Nat → Answers} {prepare : Nat → Option Bytes} (h : SafeTexts srv prepare) {w : World} {r : Crypt.DB × Verif.Res Crypt.CErr Unit} {e : Bytes}
    (he : (match prepare w.2 with
      | some e => ((w.1, w.2 + 1), Crypt.Loop.Res.refused e)
      | none => ended (srv w.2) w.2 r).2 = .refused e ∨ (match prepare w.2 with
      | some e => ((w.1, w.2 + 1), Crypt.Loop.Res.refused e)
      | none => ended (srv w.2) w.2 r).2 = .done (some e)) : Safe e := by
  cases hp : prepare w.2 with
  | some e' =>
    rw [hp] at he
    simp at he
    subst he
    exact h.prepare _ _ hp
  | none =>
    rw [hp] at he
    obtain ⟨db, r⟩ := r
    cases r with
    | ok u => simp [ended] at he
    | err x => simp [ended] at he; subst he; exact h.text _ _
    | panic => simp [ended] at he

theorem exec_sync (d : Bytes) (w : World) : (engine P I srv prepare known other usage unknown).exec [] [txtHashchain, txtSync, txtDomain, d] w =
    match prepare w.2 with
    | some e => ((w.1, w.2 + 1), .refused e)
    | none => ended (srv w.2) w.2 (Crypt.sync I d (srv w.2).last (srv w.2).entries w.1) := by
  simp only [engine]
  rw [if_pos (by simp)]

theorem exec_validate (d : Bytes) (w : World) : (engine P I srv prepare known other usage unknown).exec [] [txtHashchain, txtValidate, txtDomain, d] w =
    match prepare w.2 with
    | some e => ((w.1, w.2 + 1), .refused e)
    | none => ended (srv w.2) w.2 (w.1, Crypt.validate P I w.1 d) := by
  simp only [engine]
  rw [if_neg (by decide +kernel), if_pos (by simp)]

theorem exec_search (d : Bytes) (w : World) : (engine P I srv prepare known other usage unknown).exec [] [txtHashchain, txtSearch, txtId, d] w =
    match prepare w.2 with
    | some e => ((w.1, w.2 + 1), .refused e)
    | none => ended (srv w.2) w.2 (Crypt.search P I (srv w.2).uid d false w.1) := by
  simp only [engine]
  rw [if_neg (by decide +kernel), if_neg (by decide +kernel), if_pos (by simp)]

theorem exec_fetch (d : Bytes) (w : World) : (engine P I srv prepare known other usage unknown).exec [] [txtKeyinit, txtFetch, txtId, d] w =
    match prepare w.2 with
    | some e => ((w.1, w.2 + 1), .refused e)
    | none => ended (srv w.2) w.2 (Crypt.fetchKeyInit P I d (srv w.2).keyInit w.1) := by
  simp only [engine]
  rw [if_neg (by decide +kernel), if_neg (by decide +kernel), if_neg (by decide +kernel), if_pos (by simp)]

theorem engine_safe (h : SafeTexts srv prepare) (id domain : Bytes) :
    SafeErrors (engine P I srv prepare known other usage unknown) ((todo id domain).map (·.2)) := by
  intro c hc w e he
  simp only [todo, List.map_cons, List.map_nil, List.mem_cons, List.not_mem_nil, or_false] at hc
  rcases hc with rfl | rfl | rfl | rfl | rfl
  · rw [exec_sync] at he; exact ended_safe h he
  · rw [exec_validate] at he; exact ended_safe h he
  · rw [exec_search] at he; exact ended_safe h he
  · rw [exec_search] at he; exact ended_safe h he
  · rw [exec_fetch] at he; exact ended_safe h he

theorem ended_done {a : Answers} {n : Nat} {p : Option Bytes} {w w' : World} {r : Crypt.DB × Verif.Res Crypt.CErr Unit}
    (h : (match p with
      | some e => ((w.1, w.2 + 1), Crypt.Loop.Res.refused e)
      | none => ended a n r) = (w', .done none)) : p = none ∧ w' = (r.1, n + 1) ∧ r.2 = .ok () := by
  cases p with
  | some e => simp at h
  | none =>
    obtain ⟨db, r⟩ := r
    cases r with
    | ok u => simp [ended] at h; exact ⟨rfl, h.symm, rfl⟩
    | err x => simp [ended] at h
    | panic => simp [ended] at h

/-- What must have happened before a contact is added: the hash chain of the domain of the contact was brought up to date and
is valid, the key of the key server and then the contact were found in it, and the key init message of the contact was fetched. -/
def LookedUp (n : Nat) (id domain : Bytes) (db db' : Crypt.DB) : Prop :=
  ∃ db1 db2 db3, Crypt.sync I domain (srv n).last (srv n).entries db = (db1, .ok ()) ∧
    Crypt.validate P I db1 domain = .ok () ∧
    Crypt.search P I (srv (n + 2)).uid (txtKeyserverAt ++ domain) false db1 = (db2, .ok ()) ∧
    Crypt.search P I (srv (n + 3)).uid id false db2 = (db3, .ok ()) ∧
    Crypt.fetchKeyInit P I id (srv (n + 4)).keyInit db3 = (db', .ok ())

theorem allDone_looked {id domain : Bytes} {w w' : World} (h : AllDone (engine P I srv prepare known other usage unknown) ((todo id domain).map (·.2)) w w') :
    LookedUp P I srv w.2 id domain w.1 w'.1 := by
  simp only [todo, List.map_cons, List.map_nil] at h
  cases h with
  | cons h1 h =>
  cases h with
  | cons h2 h =>
  cases h with
  | cons h3 h =>
  cases h with
  | cons h4 h =>
  cases h with
  | cons h5 h =>
  cases h
  rw [exec_sync] at h1
  rw [exec_validate] at h2
  rw [exec_search] at h3
  rw [exec_search] at h4
  rw [exec_fetch] at h5
  obtain ⟨_, rfl, e1⟩ := ended_done h1
  obtain ⟨_, rfl, e2⟩ := ended_done h2
  obtain ⟨_, rfl, e3⟩ := ended_done h3
  obtain ⟨_, rfl, e4⟩ := ended_done h4
  obtain ⟨_, rfl, e5⟩ := ended_done h5
  exact ⟨_, _, _, Prod.ext rfl e1, e2, Prod.ext rfl e3, Prod.ext rfl e4, Prod.ext rfl e5⟩

/-- C130 (partial: no error text looks like an answer, the process is not interrupted, the names are words): the
dialogue ends, and it succeeds only if the contact was looked up in the validated hash chain of its domain. -/
theorem C130_looked_up_partial (h : SafeTexts srv prepare) (db : Crypt.DB) (id domain : Bytes) (hi : Argument id) (hd : Argument domain) (hl : domain.length ≤ 900) :
    fetchContact (engine P I srv prepare known other usage unknown) false (db, 0) id domain ≠ .hang ∧
    (fetchContact (engine P I srv prepare known other usage unknown) false (db, 0) id domain = .ok → ∃ db', LookedUp P I srv 0 id domain db db') := by
  obtain ⟨h1, h2⟩ := fetchContact_iff (engine P I srv prepare known other usage unknown) (db, 0) hi hd hl (by simp [engine]) (by simp [engine])
    (engine_safe P I srv prepare known other usage unknown h id domain)
  refine ⟨h2, fun h3 => ?_⟩
  obtain ⟨w', h4⟩ := h1.1 h3
  exact ⟨w'.1, allDone_looked P I srv prepare known other usage unknown h4⟩

/-- C130: if the database can be opened and all five commands succeed, the contact is accepted. -/
theorem C130_accepted (h : SafeTexts srv prepare) (hp : ∀ n, prepare n = none) (db db' : Crypt.DB) (id domain : Bytes) (hi : Argument id) (hd : Argument domain)
    (hl : domain.length ≤ 900) (hL : LookedUp P I srv 0 id domain db db') :
    fetchContact (engine P I srv prepare known other usage unknown) false (db, 0) id domain = .ok := by
  obtain ⟨h1, _⟩ := fetchContact_iff (engine P I srv prepare known other usage unknown) (db, 0) hi hd hl (by simp [engine]) (by simp [engine])
    (engine_safe P I srv prepare known other usage unknown h id domain)
  obtain ⟨db1, db2, db3, e1, e2, e3, e4, e5⟩ := hL
  refine h1.2 ⟨(db', 5), ?_⟩
  simp only [todo, List.map_cons, List.map_nil]
  refine .cons (w1 := (db1, 1)) ?_ (.cons (w1 := (db1, 2)) ?_ (.cons (w1 := (db2, 3)) ?_ (.cons (w1 := (db3, 4)) ?_ (.cons (w1 := (db', 5)) ?_ (.nil _)))))
  · rw [exec_sync, hp]; simp only [e1, ended]
  · rw [exec_validate, hp]; simp only [e2, ended]
  · rw [exec_search, hp]; simp only [e3, ended]
  · rw [exec_search, hp]; simp only [e4, ended]
  · rw [exec_fetch, hp]; simp only [e5, ended]

/-- C130 (partial: as above): if `contact add` succeeds for a contact that was unknown, the key database has a chain for the
domain of the contact in which every entry contains the hash of its predecessor, and in the end a message with the keys of the contact. -/
theorem C130_contact_partial (h : SafeTexts srv prepare) (J : Msgdb.Ids) (db db' : Msgdb.Db) (keys : Crypt.DB) (own contact fullName : Bytes) (type : Int)
    (ownM cM f domain : Bytes) (ty : Int) (h1 : J.map own = some ownM) (h2 : J.map contact = some cM) (hu : db.getContact J ownM cM = .ok ([], f, ty))
    (hi : Argument cM) (hd : Argument domain) (hl : domain.length ≤ 900)
    (ha : contactAdd J db own contact fullName type
      (decide (fetchContact (engine P I srv prepare known other usage unknown) false (keys, 0) cM domain = .ok)) = .ok db') :
    ∃ keys1 keys3 keys' es id' d' m pos, Crypt.Reads I keys1 domain es ∧ Crypt.Linked P es ∧ LookedUp P I srv 0 cM domain keys keys' ∧
      I.mapPlus cM = some (id', d') ∧ Crypt.getPub keys3 id' 9223372036854775807 = some (m, pos) ∧ keys'.pubs = keys3.pubs := by
  unfold contactAdd at ha
  simp only [h1, h2] at ha
  unfold contactAddMapped at ha
  simp only [hu] at ha
  rw [if_neg (by simp)] at ha
  by_cases hf : fetchContact (engine P I srv prepare known other usage unknown) false (keys, 0) cM domain = .ok
  · obtain ⟨keys', hL⟩ := (C130_looked_up_partial P I srv prepare known other usage unknown h keys cM domain hi hd hl).2 hf
    obtain ⟨k1, k2, k3, e1, e2, e3, e4, e5⟩ := hL
    obtain ⟨es, r1, r2⟩ := Crypt.C21_validated_linked P I k1 domain e2
    have e5' := e5
    unfold Crypt.fetchKeyInit at e5'
    cases hm : I.mapPlus cM with
    | none => rw [hm] at e5'; cases e5'
    | some p =>
      rw [hm] at e5'
      obtain ⟨id', d'⟩ := p
      simp only at e5'
      cases hg : Crypt.getPub k3 id' 9223372036854775807 with
      | none => rw [hg] at e5'; cases e5'
      | some q =>
        rw [hg] at e5'
        obtain ⟨m, pos⟩ := q
        refine ⟨k1, k3, keys', es, id', d', m, pos, r1, r2, ⟨k1, k2, k3, e1, e2, e3, e4, e5⟩, rfl, hg, ?_⟩
        simp only at e5'
        cases hk : Crypt.sigKeyHash P m with
        | err e => rw [hk] at e5'; cases e5'
        | panic => rw [hk] at e5'; cases e5'
        | ok x =>
          rw [hk] at e5'
          simp only at e5'
          cases hs : (srv 4).keyInit x with
          | none => rw [show (0 + 4) = 4 from rfl, hs] at e5'; cases e5'
          | some ki =>
            rw [show (0 + 4) = 4 from rfl, hs] at e5'
            simp only [Prod.mk.injEq, and_true] at e5'
            rw [← e5']
            rfl
  · rw [decide_eq_false hf] at ha
    simp at ha

end

/-- C130, violated: if `mutecrypt` is interrupted it ends with status 0 and without an answer. The engine takes this for
success: the contact is added although nothing was looked up. -/
theorem C130_interrupted_violated (M : Machine σ) (w : σ) (id domain : Bytes) (hi : Argument id) (hd : Argument domain) (hl : domain.length ≤ 900)
    (h1 : M.known txtHashchain = true) (h2 : M.known txtKeyinit = true) (hw : M.exec [] [txtHashchain, txtSync, txtDomain, domain] w = (w, .died)) :
    fetchContact M true w id domain = .ok ∧
    ∃ db', contactAdd Msgdb.plainI contactDb [1, 64, 2] [5, 64, 2] [] 0 (decide (fetchContact M true w id domain = .ok)) = .ok db' ∧
      db'.getContact Msgdb.plainI [1, 64, 2] [5, 64, 2] = .ok ([5, 64, 2], [], 0) := by
  have key : fetchContact M true w id domain = .ok := by
    have hc := todo_cmd hi hd hl h1 h2 _ (List.mem_cons_self ..)
    have hb : Between M ⟨w, [], []⟩ [] 0 w := ⟨rfl, rfl, rfl, .inl rfl⟩
    have hs := written_script M hb hc.plain
    rw [script_cmd M hc] at hs
    simp only [hb.world, hw] at hs
    have hz : lines (text (script M [] (lines ([] ++ line txtHashchain txtSync txtDomain domain ++ [10])) ⟨w, [], []⟩).1) = [] := by
      rw [hs]; rfl
    unfold fetchContact steps
    rw [dialogue]
    simp only [hz, List.getElem?_nil]
    rw [if_neg (by rw [hs]; simp)]
    rw [dialogue_dead M ⟨w, [], []⟩ .died (by decide) _ _ _ true (by rw [hs]) (.inr ⟨_, rfl⟩) (by rw [hz]; simp)]
    rfl
  refine ⟨key, ?_⟩
  rw [key]
  exact ⟨_, rfl, rfl⟩

/-- What the server answers to the first call. -/
def fake : Bytes := "READY.\nREADY.\nREADY.\nREADY.\nREADY.\nQUITTING".toUTF8.data.toList

theorem status_mono (M : Machine σ) (S : Settings) : ∀ (ls : List Bytes) (st : St σ), ∃ more, (script M S ls st).1.status = st.status ++ more := by
  intro ls
  induction ls with
  | nil => intro st; exact ⟨[], by simp [script]⟩
  | cons l ls ih =>
    intro st
    rw [script]
    split
    · exact ⟨[], by simp⟩
    · split
      · exact ih st
      · split
        · exact ⟨[txtQuitting], rfl⟩
        · have hst : (single M S (words l) st).1.status = st.status := by
            unfold single; split <;> rfl
          generalize single M S (words l) st = q at hst ⊢
          obtain ⟨st', e, r⟩ := q
          replace hst : st'.status = st.status := hst
          cases r with
          | died => exact ⟨[], by simp [hst]⟩
          | refused _ =>
            obtain ⟨more, h⟩ := ih (st'.say e.toList)
            exact ⟨e.toList ++ more, by simp only []; rw [h]; simp only [St.say, hst, List.append_assoc]⟩
          | done _ =>
            obtain ⟨more, h⟩ := ih (st'.say (e.toList ++ [txtReady]))
            exact ⟨e.toList ++ [txtReady] ++ more, by simp only []; rw [h]; simp only [St.say, hst, List.append_assoc]⟩

/-- The dialogue with a process whose text begins with the lines expected. -/
theorem dialogue_fed (M : Machine σ) (st : St σ) (clean : Bool) (T : List Bytes) : ∀ (todo : List (Bytes × Bytes)) (written : Bytes) (k : Nat),
    (∀ more, ∃ rest, lines (text (script M [] (lines (written ++ more)) st).1) = T ++ rest) →
    T.drop k = todo.map (·.2) → (∀ x ∈ todo, x.2.length ≤ 65535 ∧ dropCR x.2 = x.2) →
    dialogue M clean st written todo k = wait clean (script M [] (lines (written ++ todo.flatMap fun x => x.1 ++ [10])) st).2 := by
  intro todo
  induction todo with
  | nil => intro written k _ _ _; rw [dialogue, List.flatMap_nil, List.append_nil]
  | cons x todo ih =>
    intro written k hT hk hx
    obtain ⟨l, want⟩ := x
    obtain ⟨h1, h2⟩ := hx _ (List.mem_cons_self ..)
    obtain ⟨rest, hr⟩ := hT (l ++ [10])
    have hlt : k < T.length := by
      have := congrArg List.length hk
      simp at this
      omega
    have hget : T[k]? = some want := by
      have : (T.drop k)[0]? = some want := by rw [hk]; rfl
      simpa using this
    rw [dialogue]
    simp only [List.append_assoc] at hr ⊢
    rw [hr, List.getElem?_append_left hlt, hget]
    simp only at h1 h2 ⊢
    rw [if_neg (by omega), h2, if_pos rfl]
    rw [ih (written ++ (l ++ [10])) (k + 1) (fun more => by have := hT (l ++ [10] ++ more); simp only [List.append_assoc] at this ⊢; exact this) ?_ (fun y hy => hx y (List.mem_cons_of_mem _ hy))]
    · simp only [List.flatMap_cons, List.append_assoc]
    · rw [← List.drop_drop, hk]
      rfl

/-- A command that ends, with an error or not. -/
theorem script_end (M : Machine σ) : ∀ (todo : List (Bytes × List Bytes)) (_ : ∀ x ∈ todo, Cmd M x.1 x.2)
    (Q : σ → Prop) (_ : ∀ x ∈ todo, ∀ w, Q w → Q (M.exec [] x.2 w).1 ∧ ∃ e, (M.exec [] x.2 w).2 = .done e) (st : St σ), Q st.world →
    (script M [] (todo.map (·.1) ++ [txtQuit]) st).2 = .quit ∧ Q (script M [] (todo.map (·.1) ++ [txtQuit]) st).1.world := by
  intro todo
  induction todo with
  | nil =>
    intro _ Q _ st hq
    rw [List.map_nil, List.nil_append, script, if_neg (by decide +kernel), if_neg (by decide +kernel), if_pos (by decide +kernel)]
    exact ⟨rfl, hq⟩
  | cons x todo ih =>
    intro hc Q hQ st hq
    have hx := hc x (List.mem_cons_self ..)
    have := script_app M [] [x.1] (todo.map (·.1) ++ [txtQuit]) st
    rw [List.map_cons, List.cons_append]
    rw [List.singleton_append] at this
    rw [this, script_cmd M hx]
    obtain ⟨q1, e, he⟩ := hQ x (List.mem_cons_self ..) _ hq
    simp only [he, if_true]
    exact ih (fun y hy => hc y (List.mem_cons_of_mem _ hy)) Q (fun y hy => hQ y (List.mem_cons_of_mem _ hy)) _ q1

/-- C130, violated: a key server can answer the first call with an error whose text is the answers the engine waits for.
The contact is added although every command failed; the key database stays empty. -/
theorem C130_injected_violated (P : Uid.Prims) (I : Crypt.Ids) (srv : Nat → Answers) (known : Bytes → Bool)
    (other : Settings → List Bytes → World → World × Crypt.Loop.Res) (usage unknown : List Bytes → Bytes)
    (id domain : Bytes) (hi : Argument id) (hd : Argument domain) (hl : domain.length ≤ 900) (hs : (srv 0).last = none) (ht : (srv 0).text .rpc = fake) :
    fetchContact (engine P I srv (fun _ => none) known other usage unknown) false (⟨[], [], [], []⟩, 0) id domain = .ok ∧
    ∀ db', ¬LookedUp P I srv 0 id domain ⟨[], [], [], []⟩ db' := by
  refine ⟨?_, ?_⟩
  · have hc := todo_cmd (M := engine P I srv (fun _ => none) known other usage unknown) hi hd hl (by simp [engine]) (by simp [engine])
    have h0 := hc _ (List.mem_cons_self ..)
    generalize hM : engine P I srv (fun _ => none) known other usage unknown = M at hc h0 ⊢
    have e0 : M.exec [] [txtHashchain, txtSync, txtDomain, domain] (⟨[], [], [], []⟩, 0) = ((⟨[], [], [], []⟩, 1), .done (some fake)) := by
      rw [← hM, exec_sync]
      simp only [Crypt.sync, hs, ended, ht]
    -- the first line
    have hb : Between M ⟨((⟨[], [], [], []⟩, 0) : World), [], []⟩ [] 0 (⟨[], [], [], []⟩, 0) := ⟨rfl, rfl, rfl, .inl rfl⟩
    have hs1 := written_script M hb h0.plain
    rw [script_cmd M h0] at hs1
    simp only [hb.world, e0] at hs1
    have hst : (script M [] (lines ([] ++ line txtHashchain txtSync txtDomain domain ++ [10])) ⟨((⟨[], [], [], []⟩, 0) : World), [], []⟩).1.status = [fake, txtReady] := by
      rw [hs1]; rfl
    have hlines : lines fake = [txtReady, txtReady, txtReady, txtReady, txtReady, txtQuitting] := by decide +kernel
    have hfed : ∀ more, ∃ rest, lines (text (script M [] (lines (line txtHashchain txtSync txtDomain domain ++ [10] ++ more)) ⟨((⟨[], [], [], []⟩, 0) : World), [], []⟩).1) =
        lines (fake ++ [10]) ++ rest := by
      intro more
      rw [show line txtHashchain txtSync txtDomain domain ++ [10] ++ more = line txtHashchain txtSync txtDomain domain ++ 10 :: more by simp, lines_app, script_app]
      rw [List.nil_append] at hs1 hst
      rw [if_pos (by rw [hs1])]
      obtain ⟨m, hm⟩ := status_mono M [] (lines more) (script M [] (lines (line txtHashchain txtSync txtDomain domain ++ [10])) ⟨((⟨[], [], [], []⟩, 0) : World), [], []⟩).1
      rw [hst] at hm
      unfold text
      rw [hm, List.cons_append, List.flatMap_cons, List.append_assoc, List.singleton_append, lines_app]
      exact ⟨_, rfl⟩
    have hF : lines (fake ++ [10]) = [txtReady, txtReady, txtReady, txtReady, txtReady, txtQuitting] := by decide +kernel
    rw [hF] at hfed
    unfold fetchContact
    have hsteps : ∃ rest, steps id domain = (line txtHashchain txtSync txtDomain domain, txtReady) :: rest ∧ rest.map (·.2) = [txtReady, txtReady, txtReady, txtReady, txtQuitting] ∧
        ((line txtHashchain txtSync txtDomain domain ++ [10]) ++ rest.flatMap fun x => x.1 ++ [10]) = ((todo id domain).map (·.1) ++ [txtQuit]).flatMap fun l => l ++ [10] := by
      refine ⟨_, rfl, rfl, ?_⟩
      simp [todo]
    obtain ⟨rest, r1, r2, r3⟩ := hsteps
    rw [r1, dialogue]
    obtain ⟨rest', hr'⟩ := hfed []
    simp only [List.append_nil] at hr'
    simp only [List.nil_append]
    rw [hr']
    simp only [List.cons_append, List.getElem?_cons_zero]
    rw [if_neg (by decide +kernel), if_pos (by decide +kernel)]
    rw [dialogue_fed M _ false _ rest _ 1 hfed (by rw [r2]; rfl) ?_, r3]
    · have hl2 := text_lines ((todo id domain).map (·.1) ++ [txtQuit]) (by
        intro l hl
        rcases List.mem_append.1 hl with hl | hl
        · obtain ⟨x, hx, rfl⟩ := List.mem_map.1 hl
          exact (hc x hx).plain
        · rw [List.mem_singleton] at hl
          subst hl
          decide +kernel) []
      rw [List.append_nil] at hl2
      rw [hl2, lines, List.append_nil]
      have ht : (todo id domain).map (·.1) ++ [txtQuit] = [line txtHashchain txtSync txtDomain domain] ++ (((todo id domain).drop 1).map (·.1) ++ [txtQuit]) := rfl
      rw [ht, script_app, script_cmd M h0]
      simp only [e0, if_true]
      have := (script_end M ((todo id domain).drop 1) (fun x hx => hc x (List.mem_of_mem_drop hx)) (fun w => w.1 = ⟨[], [], [], []⟩) ?_
        ⟨((⟨[], [], [], []⟩, 1) : World), [] ++ [fake, txtReady], [] ++ [([], [txtHashchain, txtSync, txtDomain, domain])]⟩ rfl).1
      · rw [show ∀ st : St World, st.say ((some fake).toList ++ [txtReady]) = ⟨st.world, st.status ++ [fake, txtReady], st.ran⟩ from fun _ => rfl]
        rw [this]
        rfl
      · intro x hx w hw
        simp only [todo, List.drop_succ_cons, List.drop_zero, List.mem_cons, List.not_mem_nil, or_false] at hx
        rw [← hM]
        obtain ⟨db, n⟩ := w
        simp only at hw
        subst hw
        rcases hx with rfl | rfl | rfl | rfl
        · rw [exec_validate]
          exact ⟨rfl, _, rfl⟩
        · rw [exec_search]
          unfold Crypt.search
          simp only
          cases I.mapPlus (txtKeyserverAt ++ domain) with
          | none => exact ⟨rfl, _, rfl⟩
          | some p => exact ⟨rfl, _, rfl⟩
        · rw [exec_search]
          unfold Crypt.search
          simp only
          cases I.mapPlus id with
          | none => exact ⟨rfl, _, rfl⟩
          | some p => exact ⟨rfl, _, rfl⟩
        · rw [exec_fetch]
          unfold Crypt.fetchKeyInit
          simp only
          cases I.mapPlus id with
          | none => exact ⟨rfl, _, rfl⟩
          | some p => exact ⟨rfl, _, rfl⟩
    · intro x hx
      have : x.2 ∈ rest.map (·.2) := List.mem_map_of_mem hx
      rw [r2] at this
      simp only [List.mem_cons, List.not_mem_nil, or_false] at this
      rcases this with h | h | h | h | h <;> (rw [h]; decide +kernel)
  · rintro db' ⟨_, _, _, e1, _⟩
    rw [hs] at e1
    simp [Crypt.sync] at e1

def txtEvil : Bytes := "b\nuid delete".toUTF8.data.toList

/-- C130, violated: the domain of a contact is only lower-cased. A line feed in it ends the first command, and the rest of the
"domain" is another command for `mutecrypt`. -/
theorem C130_newline_violated :
    Ident.mapPlus Ident.uniW "abc@b\nuid delete".toList = .ok ("abc@b\nuid delete".toList, "b\nuid delete".toList) ∧
    (steps ("abc@".toUTF8.data.toList ++ txtEvil) txtEvil).head?.map (·.1) = some (line txtHashchain txtSync txtDomain txtEvil) ∧
    (script recorder [] (lines (line txtHashchain txtSync txtDomain txtEvil ++ [10])) ⟨(), [], []⟩).1.ran.map (·.2) =
      [[txtHashchain, txtSync, txtDomain, "b".toUTF8.data.toList], ["uid".toUTF8.data.toList, "delete".toUTF8.data.toList]] := by
  refine ⟨?_, ?_, ?_⟩ <;> decide +kernel

/-! ### Non-vacuity -/

/-- The answers of a server that is down. -/
def down : Answers := ⟨none, fun _ _ => none, fun _ _ => none, fun _ => none, fun _ => "down".toUTF8.data.toList⟩

example : SafeTexts (fun _ => down) (fun _ => none) := by
  refine ⟨fun _ _ => ?_, fun _ _ h => by cases h⟩
  show Safe ("down".toUTF8.data.toList)
  unfold Safe
  decide +kernel

section
open Verif.Crypt Verif.Crypt.Toy Verif.Uid

/-- The key server of a chain with one entry, its own, is looked up as a contact. -/
theorem server_found : ∃ (srv : Nat → Answers) (db' : DB), SafeTexts srv (fun _ => none) ∧
    LookedUp toy ids srv 0 (lit "keyserver@mute.one") (lit "mute.one") Toy.empty db' := by
  obtain ⟨x, hx, htx, -⟩ := some_entry ⟨⟨[], 0, 0, 0, [], [], [], ⟨[], [], [], []⟩, [], none, [], [],
    ⟨[], []⟩, none⟩, [], [], [], []⟩
  obtain ⟨o, ho, ha⟩ := created x hx htx
  obtain ⟨-, -, ⟨k, hk⟩, -, h5⟩ := C68_created_checks_partial toy toy_good _ _ _ _ _ _ _ _ _ ho
  let c : Content := { o.msg.content with identity := lit "keyserver@mute.one" }
  let m : Message := { o.msg with content := c, selfSig := Base64.encode (toy.sign k (toy.contentJSON c)) }
  have hid : Ascii (lit "keyserver@mute.one") := by
    have : (lit "keyserver@mute.one").all (fun c => decide (c < 128)) = true := by decide +kernel
    simp only [List.all_eq_true, decide_eq_true_eq] at this
    exact this
  have hm : toy.parseMsg (toy.msgJSON m) = some m := by
    obtain ⟨a1, a2, a3, a4, a5, a6, a7, a8, a9, b1, b2, b3, b4, b5, b6, b7⟩ := ha
    exact toy_good.parse_msg _ ⟨a1, a2, a3, hid, a5, a6, a7, a8, a9, b1, b2, b3, b4, b5, ascii_encode _, b7⟩
  have hself : verifySelfSig toy m = .ok () := by
    rw [verifySelfSig_iff]
    have : m.content.sigkey.pubkey = Base64.encode (toy.edPub k) := hk.pub
    rw [this]
    exact signedBy_sign toy_good _ _
  have hcount : m.content.msgcount = 0 := h5
  have hmap : ids.mapPlus (lit "keyserver@mute.one") = some (lit "keyserver@mute.one", lit "mute.one") := by decide +kernel
  have hsp : splitId (lit "keyserver@mute.one") = some (lit "keyserver", lit "mute.one") := by decide +kernel
  obtain ⟨e, hw, ht, hr, hh⟩ := exists_registers toy_good (lit "keyserver@mute.one") m zeros
  obtain ⟨enc, hc⟩ := exists_carries toy_good m hm [] 0 []
  have hl := synced_local e
  have hlast : lastPos ids (synced e) (lit "mute.one") = some 0 := hl.1
  have hent : getEntry ids (synced e) (lit "mute.one") 0 = .ok (Base64.encode e.bytes) := hl.2 0 (by simp)
  have hsplit : Crypt.split (Base64.encode e.bytes) = .ok e := split_ok.mpr ⟨hw, ht, Base64.decode_encode _⟩
  obtain ⟨s1, -, s3, s4⟩ := C70_sync_completes ids Toy.empty (lit "mute.one") [] [Base64.encode e.bytes] (by simp) (by simp) empty_local
  let f : UInt64 → Bytes → Option Reply := fun _ _ => some ⟨⟨enc, [], 0⟩, []⟩
  let ki : KeyInit := ⟨⟨[], 0, 0, 0, false, [], [], [], []⟩, []⟩
  let a : Answers := ⟨honestLast [Base64.encode e.bytes], honestFetch [Base64.encode e.bytes], f, fun _ => some ki, fun _ => "down".toUTF8.data.toList⟩
  have hp0 : (synced e).pubs = [] := s3
  let db2 : DB := { synced e with pubs := Sql.insert (synced e).pubs ⟨m.content.identity, m.content.msgcount, 0, m⟩ }
  have hg : ∀ pos, getPub db2 (lit "keyserver@mute.one") pos = some (m, 0) := by
    intro pos
    unfold getPub
    simp only [db2, top_insert, hp0]
    have h0 : top (·.pos) (fun r : PubRow => r.identity = lit "keyserver@mute.one" && r.pos ≤ pos) [] = none := rfl
    rw [h0]
    unfold topStep
    rw [if_pos (by simp [m, c])]
    rfl
  have hpos : positions 0 = [0] := rfl
  have hms := matchEntry_stores (f := f) (i := 0) (db := synced e) toy_good hr rfl hc hm hself
    (by unfold verifyServerSig; rw [show m.content.identity = lit "keyserver@mute.one" from rfl, hsp]; simp only; rw [if_pos ⟨trivial, hcount⟩]) (by decide)
    (by rw [hcount]; decide) (by unfold hasPub getPub; rw [hp0]; rfl)
  have hs1 : search toy ids f (lit "keyserver@mute.one") false (synced e) = (db2, .ok ()) := by
    unfold search
    rw [hmap]
    simp only [hlast, hpos]
    unfold searchLoop
    simp only [hent, hsplit, ht, ne_eq, not_true, if_false, registers_isFor hr, Bool.true_eq_false,
      Bool.false_eq_true, hms, searchLoop]
    rfl
  have hlast2 : lastPos ids db2 (lit "mute.one") = some 0 := hl.1
  have hent2 : getEntry ids db2 (lit "mute.one") 0 = .ok (Base64.encode e.bytes) := hl.2 0 (by simp)
  have hs2 : search toy ids f (lit "keyserver@mute.one") false db2 = (db2, .ok ()) := by
    have hms2 : matchEntry toy f (lit "keyserver@mute.one") db2 0 e = (db2, .ok ()) := by
      unfold matchEntry hasPub
      rw [if_neg (by decide), hg]
      simp
    unfold search
    rw [hmap]
    simp only [hlast2, hpos]
    unfold searchLoop
    simp only [hent2, hsplit, ht, ne_eq, not_true, if_false, registers_isFor hr, Bool.true_eq_false,
      Bool.false_eq_true, hms2, searchLoop]
  have hkey : txtKeyserverAt ++ lit "mute.one" = lit "keyserver@mute.one" := by decide +kernel
  refine ⟨fun _ => a, addKi db2 ki, ⟨fun _ _ => ?_, fun _ _ h => by cases h⟩, synced e, db2, db2, ?_, ?_, ?_, ?_, ?_⟩
  · show Safe ("down".toUTF8.data.toList)
    unfold Safe
    decide +kernel
  · exact Prod.ext rfl s1
  · refine C21_linked_validates toy ids _ _ [e] s4 ⟨⟨0, hlast, rfl⟩, ?_⟩ ?_
    · intro i hi
      have : i = 0 := by simp at hi; exact hi
      subst this
      exact ⟨_, hent, hw, ht, Base64.decode_encode _⟩
    · intro i hi
      have : i = 0 := by simp at hi; exact hi
      subst this
      rw [show [e][0] = e from rfl, hh]
      rfl
  · rw [hkey]; exact hs1
  · exact hs2
  · unfold fetchKeyInit
    rw [hmap]
    simp only [hg]
    have : sigKeyHash toy m = .ok (Base64.encode (toy.sha512 (toy.sha512 (toy.edPub k)))) := by
      unfold sigKeyHash
      rw [show m.content.sigkey.hash = Base64.encode (toy.sha512 (toy.edPub k)) from hk.hash, unb64_encode]
      rfl
    rw [this]

/-- C130: it is accepted. -/
example (known : Bytes → Bool) (other : Settings → List Bytes → AddContact.World → AddContact.World × Crypt.Loop.Res) (usage unknown : List Bytes → Bytes) :
    ∃ srv : Nat → Answers, SafeTexts srv (fun _ => none) ∧
      fetchContact (engine toy ids srv (fun _ => none) known other usage unknown) false (Toy.empty, 0) (lit "keyserver@mute.one") (lit "mute.one") = .ok := by
  obtain ⟨srv, db', h1, h2⟩ := server_found
  exact ⟨srv, h1, C130_accepted _ _ _ _ _ _ _ _ h1 (fun _ => rfl) _ _ _ _ (argument_of _ (by decide +kernel)) (argument_of _ (by decide +kernel)) (by decide +kernel) h2⟩

end

example : Argument "a@b.c".toUTF8.data.toList := argument_of _ (by decide +kernel)

/-- The commands succeed in turn and the contact is accepted. -/
example : fetchContact recorder false () "a@b".toUTF8.data.toList "b".toUTF8.data.toList = .ok := by decide +kernel

/-- A command that ends the process. -/
example : fetchContact (⟨fun _ => true, fun _ _ _ => ((), .died), fun _ => [], fun _ => [], []⟩ : Machine Unit) true () "a@b".toUTF8.data.toList "b".toUTF8.data.toList = .ok := by
  decide +kernel

/-- A server whose error text is the answers expected. -/
example : ∃ srv : Nat → Answers, (srv 0).last = none ∧ (srv 0).text .rpc = fake := ⟨fun _ => { down with text := fun _ => fake }, rfl, rfl⟩

end Verif.Ctrl.AddContact

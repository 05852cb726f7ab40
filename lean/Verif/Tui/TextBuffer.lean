/-
The text buffer (tui/textbuffer/textbuffer.go). The width of a rune (`runewidth.RuneWidth`) is a
parameter. Coordinates are natural numbers: negative ones panic in Go and are never passed, see
`Verif.Tui.Editor`.
-/
import Verif.Tui.Utf8

namespace Verif.Tui

/-- A cell: the index of its character and the width (textbuffer.go:82-85). -/
structure Cell where
  charIndex : Nat
  charWidth : Nat
  deriving DecidableEq, Repr

/-- A line (textbuffer.go:75-80). -/
structure Line where
  runes : List Nat
  chars : List Nat
  cells : List Cell
  deriving DecidableEq, Repr

abbrev Buffer := List Line

/-- `l.chars[len(l.chars)-1]++`; none if there is none. -/
def bumpLast : List Nat → Option (List Nat)
  | [] => none
  | [n] => some [n + 1]
  | n :: m :: l => (bumpLast (m :: l)).map (n :: ·)

/-- The line before a combining rune (textbuffer.go:93-101). -/
def startLine (l : Line) : Line := if l.runes.length = 0 then ⟨l.runes ++ [32], l.chars ++ [1], l.cells ++ [⟨0, 1⟩]⟩ else l

/-- The body of the loop in `parseRow` (textbuffer.go:90-118); none is a panic. -/
def addRune (w : Nat → Nat) (l : Line) (r : Nat) : Option Line :=
  match w r with
  | 0 => (bumpLast (startLine l).chars).map fun c => ⟨(startLine l).runes ++ [r], c, (startLine l).cells⟩
  | 1 => some ⟨l.runes ++ [r], l.chars ++ [l.runes.length + 1], l.cells ++ [⟨l.chars.length, 1⟩]⟩
  | 2 => some ⟨l.runes ++ [r], l.chars ++ [l.runes.length + 1], l.cells ++ [⟨l.chars.length, 2⟩, ⟨l.chars.length, 0⟩]⟩
  | _ => none

/-- The loop over the bytes of a row (textbuffer.go:87-121); `n` bounds the number of iterations. -/
def parseFrom (w : Nat → Nat) : Nat → Line → Bytes → Option Line
  | _, l, [] => some l
  | 0, l, _ => some l
  | n + 1, l, row => (addRune w l (decodeRune row).1).bind fun l' => parseFrom w n l' (row.drop (decodeRune row).2)

/-- `parseRow` (textbuffer.go:87-121). -/
def parseRow (w : Nat → Nat) (row : Bytes) : Option Line := parseFrom w row.length ⟨[], [], []⟩ row

/-- `bytes.Split(b, "\n")`. -/
def splitLines : Bytes → List Bytes
  | [] => [[]]
  | b :: t =>
    if b = 10 then [] :: splitLines t
    else match splitLines t with
      | [] => [[b]]
      | r :: rs => (b :: r) :: rs

/-- `New` (textbuffer.go:123-136). -/
def new (w : Nat → Nat) (b : Bytes) : Option Buffer := (splitLines b).mapM (parseRow w)

/-- `GetRune` (textbuffer.go:140-147). -/
def getRune (tb : Buffer) (x y : Nat) : Nat :=
  match tb[y]? with
  | none => runeError
  | some l => l.runes.getD x runeError

/-- `runes[l:h]` in `GetChar` (textbuffer.go:155-160). -/
def charOf (l : Line) (x : Nat) : List Nat :=
  match l.chars[x]? with
  | none => []
  | some h => (l.runes.take h).drop (if 0 < x then l.chars.getD (x - 1) 0 else 0)

/-- `GetChar` (textbuffer.go:151-163). -/
def getChar (tb : Buffer) (x y : Nat) : List Nat :=
  match tb[y]? with
  | none => []
  | some l => charOf l x

/-- `GetCell` (textbuffer.go:168-176). -/
def getCell (tb : Buffer) (x y : Nat) : List Nat × Nat :=
  match tb[y]? with
  | none => ([], 0)
  | some l =>
    match l.cells[x]? with
    | none => ([], 0)
    | some c => (charOf l c.charIndex, c.charWidth)

/-- `LineLenCell` (textbuffer.go:215-220). -/
def lineLenCell (tb : Buffer) (y : Nat) : Nat :=
  match tb[y]? with
  | none => 0
  | some l => l.cells.length

/-- `MaxLineLenCell` (textbuffer.go:223-233). -/
def maxLineLenCell (tb : Buffer) : Nat := tb.foldl (fun m l => if m < l.cells.length then l.cells.length else m) 0

/-- A line in `Write` (textbuffer.go:246-252). -/
def writeLine (l : Line) : Bytes := l.runes.flatMap encodeRune

/-- `Write` (textbuffer.go:236-255). -/
def write : Buffer → Bytes
  | [] => []
  | [l] => writeLine l
  | l :: tb => writeLine l ++ 10 :: write tb

/-! ### specification -/

/-- A character: a rune and the combining runes after it. -/
structure Group where
  base : Nat
  combining : List Nat
  deriving DecidableEq, Repr

def Group.runes (g : Group) : List Nat := g.base :: g.combining

/-- The cells of a character. -/
def Group.cells (w : Nat → Nat) (i : Nat) (g : Group) : List Cell := if w g.base = 2 then [⟨i, 2⟩, ⟨i, 0⟩] else [⟨i, 1⟩]

/-- The width of a character. -/
def Group.width (w : Nat → Nat) (g : Group) : Nat := if w g.base = 2 then 2 else 1

/-- The ends of characters in a line, from position `n` on. -/
def ends (n : Nat) : List Group → List Nat
  | [] => []
  | g :: gs => (n + g.runes.length) :: ends (n + g.runes.length) gs

/-- The cells of characters, from index `i` on. -/
def cellsFrom (w : Nat → Nat) (i : Nat) : List Group → List Cell
  | [] => []
  | g :: gs => g.cells w i ++ cellsFrom w (i + 1) gs

/-- A line represents a list of characters. -/
structure Holds (w : Nat → Nat) (l : Line) (gs : List Group) : Prop where
  runes : l.runes = gs.flatMap Group.runes
  chars : l.chars = ends 0 gs
  cells : l.cells = cellsFrom w 0 gs
  base : ∀ g ∈ gs, w g.base = 1 ∨ w g.base = 2
  combining : ∀ g ∈ gs, ∀ r ∈ g.combining, w r = 0

/-- The text of a line as it is stored: a space is added before a combining rune at the start. -/
def shown (w : Nat → Nat) : List Nat → List Nat
  | [] => []
  | r :: t => if w r = 0 then 32 :: r :: t else r :: t

/-- The bytes of a text. -/
def encodeText : List (List Nat) → Bytes
  | [] => []
  | [l] => l.flatMap encodeRune
  | l :: t => l.flatMap encodeRune ++ 10 :: encodeText t

/-! ### lemmas -/

theorem ends_append (n : Nat) (gs hs : List Group) : ends n (gs ++ hs) = ends n gs ++ ends (n + (gs.flatMap Group.runes).length) hs := by
  induction gs generalizing n with
  | nil => rfl
  | cons g gs ih => simp only [List.cons_append, ends, ih, List.flatMap_cons, List.length_append, Nat.add_assoc]

theorem cellsFrom_append (w : Nat → Nat) (i : Nat) (gs hs : List Group) : cellsFrom w i (gs ++ hs) = cellsFrom w i gs ++ cellsFrom w (i + gs.length) hs := by
  induction gs generalizing i with
  | nil => rfl
  | cons g gs ih => simp only [List.cons_append, cellsFrom, ih, List.append_assoc, List.length_cons, Nat.add_assoc, Nat.add_comm 1]

theorem ends_length (n : Nat) (gs : List Group) : (ends n gs).length = gs.length := by
  induction gs generalizing n with
  | nil => rfl
  | cons g gs ih => simp only [ends, List.length_cons, ih]

theorem bumpLast_append (l : List Nat) (n : Nat) : bumpLast (l ++ [n]) = some (l ++ [n + 1]) := by
  induction l with
  | nil => rfl
  | cons a l ih =>
    cases l with
    | nil => rfl
    | cons b l =>
      simp only [List.cons_append, bumpLast] at ih ⊢
      rw [ih]; rfl

/-- One rune more. -/
theorem addRune_holds {w : Nat → Nat} {l : Line} {gs : List Group} (h : Holds w l gs) (hsp : w 32 = 1) (r : Nat) (hw : w r ≤ 2) :
    ∃ l' gs', addRune w l r = some l' ∧ Holds w l' gs' ∧ gs'.flatMap Group.runes = if gs = [] then shown w [r] else gs.flatMap Group.runes ++ [r] := by
  have hlen : l.runes.length = (gs.flatMap Group.runes).length := by rw [h.runes]
  have hclen : l.chars.length = gs.length := by rw [h.chars, ends_length]
  match hr : w r with
  | 0 =>
    cases hg : gs.reverse with
    | nil =>
      have : gs = [] := by simpa using hg
      subst this
      obtain ⟨h1, h2, h3⟩ : l.runes = [] ∧ l.chars = [] ∧ l.cells = [] := ⟨h.runes, h.chars, h.cells⟩
      refine ⟨⟨[32, r], [2], [⟨0, 1⟩]⟩, [⟨32, [r]⟩], ?_, ⟨rfl, rfl, ?_, ?_, ?_⟩, ?_⟩
      · simp [addRune, hr, startLine, h1, h2, h3, bumpLast]
      · simp [cellsFrom, Group.cells, hsp]
      · simp [hsp]
      · simp [hr]
      · simp [Group.runes, shown, hr]
    | cons g t =>
      have e : gs = t.reverse ++ [g] := by
        rw [← List.reverse_reverse gs, hg, List.reverse_cons]
      have hne : gs ≠ [] := by rw [e]; simp
      have hr0 : ¬ l.runes.length = 0 := by
        rw [hlen, e, List.flatMap_append]
        simp [Group.runes]
      have hst : startLine l = l := if_neg hr0
      refine ⟨⟨l.runes ++ [r], ends 0 (t.reverse ++ [⟨g.base, g.combining ++ [r]⟩]), l.cells⟩, t.reverse ++ [⟨g.base, g.combining ++ [r]⟩], ?_, ⟨?_, rfl, ?_, ?_, ?_⟩, ?_⟩
      · simp only [addRune, hr, hst, h.chars, e, ends_append, ends]
        rw [bumpLast_append]
        simp [Group.runes, Nat.add_assoc]
      · rw [h.runes, e]
        simp [Group.runes]
      · simp only [h.cells, e, cellsFrom_append]
        rfl
      · intro x hx
        rcases List.mem_append.mp hx with hx | hx
        · exact h.base x (by rw [e]; exact List.mem_append_left _ hx)
        · rw [List.mem_singleton.mp hx]
          exact h.base g (by rw [e]; simp)
      · intro x hx
        rcases List.mem_append.mp hx with hx | hx
        · exact h.combining x (by rw [e]; exact List.mem_append_left _ hx)
        · rw [List.mem_singleton.mp hx]
          intro y hy
          rcases List.mem_append.mp hy with hy | hy
          · exact h.combining g (by rw [e]; simp) y hy
          · rw [List.mem_singleton.mp hy]; exact hr
      · rw [if_neg hne, e]
        simp [Group.runes]
  | 1 =>
    refine ⟨⟨l.runes ++ [r], l.chars ++ [l.runes.length + 1], l.cells ++ [⟨l.chars.length, 1⟩]⟩, gs ++ [⟨r, []⟩], by simp only [addRune, hr], ⟨?_, ?_, ?_, ?_, ?_⟩, ?_⟩
    · simp [h.runes, Group.runes]
    · simp only [h.chars, ends_append, ends, hlen, Group.runes]; simp
    · simp only [h.cells, cellsFrom_append, cellsFrom, Group.cells, hr, hclen]; simp
    · intro x hx
      rcases List.mem_append.mp hx with hx | hx
      · exact h.base x hx
      · rw [List.mem_singleton.mp hx]; exact .inl hr
    · intro x hx
      rcases List.mem_append.mp hx with hx | hx
      · exact h.combining x hx
      · rw [List.mem_singleton.mp hx]; nofun
    · split
      · rename_i hg
        subst hg
        simp [shown, hr, Group.runes]
      · simp [Group.runes]
  | 2 =>
    refine ⟨⟨l.runes ++ [r], l.chars ++ [l.runes.length + 1], l.cells ++ [⟨l.chars.length, 2⟩, ⟨l.chars.length, 0⟩]⟩, gs ++ [⟨r, []⟩], by simp only [addRune, hr], ⟨?_, ?_, ?_, ?_, ?_⟩, ?_⟩
    · simp [h.runes, Group.runes]
    · simp only [h.chars, ends_append, ends, hlen, Group.runes]; simp
    · simp only [h.cells, cellsFrom_append, cellsFrom, Group.cells, hr, hclen]; simp
    · intro x hx
      rcases List.mem_append.mp hx with hx | hx
      · exact h.base x hx
      · rw [List.mem_singleton.mp hx]; exact .inr hr
    · intro x hx
      rcases List.mem_append.mp hx with hx | hx
      · exact h.combining x hx
      · rw [List.mem_singleton.mp hx]; nofun
    · split
      · rename_i hg
        subst hg
        simp [shown, hr, Group.runes]
      · simp [Group.runes]
  | n + 3 => omega

/-- The runes of a row of bytes. -/
def runesOf : Nat → Bytes → List Nat
  | _, [] => []
  | 0, _ => []
  | n + 1, row => (decodeRune row).1 :: runesOf n (row.drop (decodeRune row).2)

theorem parseFrom_holds {w : Nat → Nat} (hsp : w 32 = 1) (hw : ∀ r, w r ≤ 2) (n : Nat) : ∀ (l : Line) (gs : List Group) (row : Bytes), Holds w l gs →
    ∃ l' gs', parseFrom w n l row = some l' ∧ Holds w l' gs' ∧
      gs'.flatMap Group.runes = if gs = [] then shown w (runesOf n row) else gs.flatMap Group.runes ++ runesOf n row := by
  induction n with
  | zero =>
    intro l gs row h
    refine ⟨l, gs, ?_, h, ?_⟩
    · cases row <;> rfl
    · have : runesOf 0 row = [] := by cases row <;> rfl
      rw [this]
      split
      · rename_i hg; subst hg; rfl
      · simp
  | succ n ih =>
    intro l gs row h
    cases row with
    | nil =>
      refine ⟨l, gs, rfl, h, ?_⟩
      split
      · rename_i hg; subst hg; rfl
      · simp [runesOf]
    | cons b row =>
      obtain ⟨l1, gs1, e1, h1, f1⟩ := addRune_holds h hsp (decodeRune (b :: row)).1 (hw _)
      obtain ⟨l2, gs2, e2, h2, f2⟩ := ih l1 gs1 ((b :: row).drop (decodeRune (b :: row)).2) h1
      refine ⟨l2, gs2, ?_, h2, ?_⟩
      · simp only [parseFrom, e1, Option.bind_some]
        exact e2
      · have hne : gs1 ≠ [] := by
          intro hg
          rw [hg] at f1
          split at f1
          · simp only [shown] at f1
            split at f1 <;> cases f1
          · simp at f1
        rw [if_neg hne] at f2
        rw [f2, f1]
        simp only [runesOf]
        split
        · simp only [shown]
          split <;> rfl
        · simp

/-- A row of bytes is parsed without a panic, into the characters of its runes. -/
theorem parseRow_holds {w : Nat → Nat} (hsp : w 32 = 1) (hw : ∀ r, w r ≤ 2) (row : Bytes) :
    ∃ l gs, parseRow w row = some l ∧ Holds w l gs ∧ gs.flatMap Group.runes = shown w (runesOf row.length row) := by
  obtain ⟨l, gs, h1, h2, h3⟩ := parseFrom_holds hsp hw row.length ⟨[], [], []⟩ [] row ⟨rfl, rfl, rfl, nofun, nofun⟩
  exact ⟨l, gs, h1, h2, by simpa using h3⟩

theorem runesOf_mono : ∀ (n : Nat) (row : Bytes), row.length ≤ n → runesOf n row = runesOf row.length row := by
  intro n
  induction n using Nat.strongRecOn with
  | _ n ih =>
    intro row h
    cases row with
    | nil => cases n <;> rfl
    | cons b row =>
      cases n with
      | zero => simp at h
      | succ n =>
        have hp := decodeRune_pos (b := b) (t := row)
        have hl : ((b :: row).drop (decodeRune (b :: row)).2).length ≤ row.length := by
          rw [List.length_drop, List.length_cons]; omega
        simp only [List.length_cons] at h ⊢
        simp only [runesOf]
        rw [ih n (Nat.lt_succ_self n) _ (by omega)]
        by_cases hn : row.length = n
        · rw [hn, ih n (Nat.lt_succ_self n) _ (by omega)]
        · rw [ih row.length (by omega) _ hl]

theorem runesOf_encode {l : List Nat} (h : ∀ r ∈ l, ValidRune r) : runesOf (l.flatMap encodeRune).length (l.flatMap encodeRune) = l := by
  induction l with
  | nil => rfl
  | cons r l ih =>
    have hr := h r List.mem_cons_self
    have hd := decode_encode hr (l.flatMap encodeRune)
    obtain ⟨b, t, e⟩ := List.exists_cons_of_ne_nil (encodeRune_ne_nil r)
    simp only [List.flatMap_cons]
    rw [e, List.cons_append] at hd ⊢
    simp only [List.length_cons, runesOf, hd, List.drop_succ_cons]
    rw [List.drop_append_of_le_length (Nat.le_refl _), List.drop_length, List.nil_append, runesOf_mono _ _ (by simp), ih fun x hx => h x (.tail _ hx)]

theorem splitLines_ne_nil (b : Bytes) : splitLines b ≠ [] := by
  cases b with
  | nil => simp [splitLines]
  | cons c t =>
    simp only [splitLines]
    split
    · simp
    · split <;> simp

theorem splitLines_line {a : Bytes} (h : (10 : UInt8) ∉ a) : splitLines a = [a] := by
  induction a with
  | nil => rfl
  | cons b t ih =>
    have hb : b ≠ 10 := fun e => h (by rw [e]; exact List.mem_cons_self)
    simp only [splitLines, if_neg hb, ih fun hm => h (.tail _ hm)]

theorem splitLines_append {a b : Bytes} (h : (10 : UInt8) ∉ a) : splitLines (a ++ 10 :: b) = a :: splitLines b := by
  induction a with
  | nil => simp [splitLines]
  | cons c t ih =>
    have hb : c ≠ 10 := fun e => h (by rw [e]; exact List.mem_cons_self)
    simp only [List.cons_append, splitLines, if_neg hb, ih fun hm => h (.tail _ hm)]

theorem no_newline {l : List Nat} (h : ∀ r ∈ l, ValidRune r ∧ r ≠ 10) : (10 : UInt8) ∉ l.flatMap encodeRune := by
  intro hm
  obtain ⟨r, hr, hx⟩ := List.mem_flatMap.mp hm
  exact encodeRune_no_newline (h r hr).1 (h r hr).2 hx

theorem splitLines_text {t : List (List Nat)} (ht : t ≠ []) (h : ∀ l ∈ t, ∀ r ∈ l, ValidRune r ∧ r ≠ 10) :
    splitLines (encodeText t) = t.map fun l => l.flatMap encodeRune := by
  induction t with
  | nil => exact absurd rfl ht
  | cons l t ih =>
    cases t with
    | nil => simp only [encodeText, List.map_cons, List.map_nil]; exact splitLines_line (no_newline (h l List.mem_cons_self))
    | cons m t =>
      simp only [encodeText, List.map_cons]
      rw [splitLines_append (no_newline (h l List.mem_cons_self))]
      have := ih (by simp) fun x hx => h x (.tail _ hx)
      simp only [List.map_cons] at this
      rw [this]

theorem write_text (tb : Buffer) (t : List (List Nat)) (h : tb.map (·.runes) = t) : write tb = encodeText t := by
  subst h
  induction tb with
  | nil => rfl
  | cons l tb ih =>
    cases tb with
    | nil => rfl
    | cons m tb =>
      simp only [write, List.map_cons, encodeText] at ih ⊢
      rw [ih]; rfl

theorem charAt (pre : List Nat) (gs : List Group) (x : Nat) :
    (match (ends pre.length gs)[x]? with
      | none => ([] : List Nat)
      | some h => ((pre ++ gs.flatMap Group.runes).take h).drop (if 0 < x then (ends pre.length gs).getD (x - 1) 0 else pre.length)) =
    match gs[x]? with | none => [] | some g => g.runes := by
  induction gs generalizing pre x with
  | nil => simp [ends]
  | cons g gs ih =>
    cases x with
    | zero => simp [ends, List.take_append]
    | succ x =>
      have e : pre.length + g.runes.length = (pre ++ g.runes).length := by simp
      have := ih (pre ++ g.runes) x
      simp only [ends, e, List.getElem?_cons_succ, List.flatMap_cons, ← List.append_assoc]
      rw [← this]
      cases x with
      | zero => simp
      | succ x => simp

theorem cells_length {w : Nat → Nat} {gs : List Group} (h : ∀ g ∈ gs, w g.base = 1 ∨ w g.base = 2) (i : Nat) :
    (cellsFrom w i gs).length = (gs.map fun g => w g.base).sum := by
  induction gs generalizing i with
  | nil => rfl
  | cons g gs ih =>
    simp only [cellsFrom, List.length_append, ih (fun x hx => h x (.tail _ hx)), List.map_cons, List.sum_cons, Group.cells]
    rcases h g List.mem_cons_self with e | e <;> simp [e]

theorem cell_at {w : Nat → Nat} {gs : List Group} (h : ∀ g ∈ gs, w g.base = 1 ∨ w g.base = 2) (i x : Nat) (c : Cell) (hc : (cellsFrom w i gs)[x]? = some c) :
    i ≤ c.charIndex ∧ ∃ g, gs[c.charIndex - i]? = some g ∧
      ((x = ((gs.take (c.charIndex - i)).map fun g => w g.base).sum ∧ c.charWidth = w g.base) ∨
      (x = ((gs.take (c.charIndex - i)).map fun g => w g.base).sum + 1 ∧ w g.base = 2 ∧ c.charWidth = 0)) := by
  induction gs generalizing i x with
  | nil => simp [cellsFrom] at hc
  | cons g gs ih =>
    have hrec : ∀ y, (cellsFrom w (i + 1) gs)[y]? = some c → x = w g.base + y → i ≤ c.charIndex ∧ ∃ g', (g :: gs)[c.charIndex - i]? = some g' ∧
      ((x = (((g :: gs).take (c.charIndex - i)).map fun g => w g.base).sum ∧ c.charWidth = w g'.base) ∨
      (x = (((g :: gs).take (c.charIndex - i)).map fun g => w g.base).sum + 1 ∧ w g'.base = 2 ∧ c.charWidth = 0)) := by
      intro y hy hx
      obtain ⟨h1, g', h2, h3⟩ := ih (fun x hx => h x (.tail _ hx)) (i + 1) y hy
      have e : c.charIndex - i = (c.charIndex - (i + 1)) + 1 := by omega
      refine ⟨by omega, g', ?_, ?_⟩
      · rw [e, List.getElem?_cons_succ]; exact h2
      · rw [e, List.take_succ_cons, List.map_cons, List.sum_cons]
        omega
    simp only [cellsFrom, Group.cells] at hc
    rcases h g List.mem_cons_self with e | e
    · rw [if_neg (by omega)] at hc
      match x, hc with
      | 0, hc =>
        injection hc with hc
        subst hc
        exact ⟨Nat.le_refl _, g, by simp, .inl (by simp [e])⟩
      | x + 1, hc => exact hrec x (by simpa using hc) (by omega)
    · rw [if_pos e] at hc
      match x, hc with
      | 0, hc =>
        injection hc with hc
        subst hc
        exact ⟨Nat.le_refl _, g, by simp, .inl (by simp [e])⟩
      | 1, hc =>
        injection hc with hc
        subst hc
        exact ⟨Nat.le_refl _, g, by simp, .inr (by simp [e])⟩
      | x + 2, hc => exact hrec x (by simpa using hc) (by omega)

/-! ### C54 -/

theorem mapM_holds {w : Nat → Nat} (hsp : w 32 = 1) (hw : ∀ r, w r ≤ 2) (rows : List Bytes) :
    ∃ tb, rows.mapM (parseRow w) = some tb ∧ tb.map (·.runes) = rows.map (fun row => shown w (runesOf row.length row)) ∧ ∀ l ∈ tb, ∃ gs, Holds w l gs := by
  induction rows with
  | nil => exact ⟨[], rfl, rfl, nofun⟩
  | cons row rows ih =>
    obtain ⟨l, gs, h1, h2, h3⟩ := parseRow_holds hsp hw row
    obtain ⟨tb, g1, g2, g3⟩ := ih
    refine ⟨l :: tb, ?_, ?_, ?_⟩
    · simp [h1, g1]
    · simp [g2, h2.runes, h3]
    · intro x hx
      rcases List.mem_cons.mp hx with rfl | hx
      · exact ⟨gs, h2⟩
      · exact g3 x hx

/-- **C54** Every text is accepted, and writing the buffer out gives the text with a space before every
combining rune at the start of a line. -/
theorem C54_write_new (w : Nat → Nat) (hsp : w 32 = 1) (hw : ∀ r, w r ≤ 2) (t : List (List Nat)) (ht : t ≠ []) (h : ∀ l ∈ t, ∀ r ∈ l, ValidRune r ∧ r ≠ 10) :
    ∃ tb, new w (encodeText t) = some tb ∧ write tb = encodeText (t.map (shown w)) := by
  obtain ⟨tb, h1, h2, _⟩ := mapM_holds hsp hw (splitLines (encodeText t))
  refine ⟨tb, h1, write_text tb _ ?_⟩
  rw [h2, splitLines_text ht h, List.map_map]
  refine List.map_congr_left fun l hl => ?_
  simp only [Function.comp]
  rw [runesOf_encode fun r hr => (h l hl r hr).1]

/-- **C54** A text in which no line starts with a combining rune is reproduced exactly. Missing: the other
texts (`C54_combining_start_changed`) and bytes that are not UTF-8 (`C54_invalid_bytes_changed`). -/
theorem C54_round_trip_partial (w : Nat → Nat) (hsp : w 32 = 1) (hw : ∀ r, w r ≤ 2) (t : List (List Nat)) (ht : t ≠ []) (h : ∀ l ∈ t, ∀ r ∈ l, ValidRune r ∧ r ≠ 10)
    (hs : ∀ l ∈ t, ∀ r, l.head? = some r → w r ≠ 0) : ∃ tb, new w (encodeText t) = some tb ∧ write tb = encodeText t := by
  obtain ⟨tb, h1, h2⟩ := C54_write_new w hsp hw t ht h
  refine ⟨tb, h1, ?_⟩
  rw [h2]
  congr 1
  have : ∀ l ∈ t, shown w l = id l := fun l hl => by
    cases l with
    | nil => rfl
    | cons r l => exact if_neg (hs _ hl r rfl)
  rw [List.map_congr_left this, List.map_id]

/-- **C54** The full statement fails: a line that starts with a combining rune, for example with a
tab, whose width is 0, is written with a space before it. -/
theorem C54_combining_start_changed (w : Nat → Nat) (hsp : w 32 = 1) (hw : ∀ r, w r ≤ 2) (r : Nat) (l : List Nat) (hr : w r = 0)
    (h : ∀ x ∈ r :: l, ValidRune x ∧ x ≠ 10) :
    ∃ tb, new w (encodeText [r :: l]) = some tb ∧ write tb = 32 :: encodeText [r :: l] ∧ write tb ≠ encodeText [r :: l] := by
  obtain ⟨tb, h1, h2⟩ := C54_write_new w hsp hw [r :: l] (by simp) fun x hx => by
    rw [List.mem_singleton.mp hx]; exact h
  have e : write tb = 32 :: encodeText [r :: l] := by
    rw [h2]
    simp only [List.map_cons, List.map_nil, shown, if_pos hr, encodeText, List.flatMap_cons]
    rfl
  refine ⟨tb, h1, e, ?_⟩
  rw [e]
  intro hc
  have := congrArg List.length hc
  simp at this

/-- **C54** Bytes that are not UTF-8 are replaced. -/
theorem C54_invalid_bytes_changed : ∃ tb, new (fun _ => 1) [255] = some tb ∧ write tb = [0xEF, 0xBF, 0xBD] := ⟨_, rfl, rfl⟩

/-- **C54** For every sequence of bytes, each line of the buffer is a list of characters, each a rune of
width 1 or 2 with combining runes. Looking up a character or a cell gives exactly these: character `x` is
the `x`-th one, and the cells of the characters follow each other, one for a narrow and two for a wide one. -/
theorem C54_characters (w : Nat → Nat) (hsp : w 32 = 1) (hw : ∀ r, w r ≤ 2) (b : Bytes) :
    ∃ tb, new w b = some tb ∧ ∀ l ∈ tb, ∃ gs : List Group,
      l.runes = gs.flatMap Group.runes ∧ (∀ g ∈ gs, (w g.base = 1 ∨ w g.base = 2) ∧ ∀ r ∈ g.combining, w r = 0) ∧
      (∀ x, charOf l x = match gs[x]? with | none => [] | some g => g.runes) ∧
      l.cells.length = (gs.map fun g => w g.base).sum ∧ ∀ (x : Nat) (c : Cell), l.cells[x]? = some c → ∃ g, gs[c.charIndex]? = some g ∧
        (let start := ((gs.take c.charIndex).map fun g => w g.base).sum
        (x = start ∧ c.charWidth = w g.base) ∨ (x = start + 1 ∧ w g.base = 2 ∧ c.charWidth = 0)) := by
  obtain ⟨tb, h1, _, h3⟩ := mapM_holds hsp hw (splitLines b)
  refine ⟨tb, h1, fun l hl => ?_⟩
  obtain ⟨gs, hg⟩ := h3 l hl
  refine ⟨gs, hg.runes, fun g hx => ⟨hg.base g hx, hg.combining g hx⟩, ?_, ?_, ?_⟩
  · intro x
    unfold charOf
    rw [hg.chars, hg.runes]
    exact charAt [] gs x
  · rw [hg.cells]
    exact cells_length hg.base 0
  · rw [hg.cells]
    intro x c hc
    obtain ⟨_, g, h⟩ := cell_at hg.base 0 x c hc
    exact ⟨g, h⟩

/-- A width function and texts that meet the hypotheses: an accent is a combining rune, U+4E00 is wide. -/
def sampleWidth (r : Nat) : Nat := if r = 0 ∨ r = 9 ∨ r = 0x301 then 0 else if r = 0x4E00 then 2 else 1

theorem sampleWidth_le (r : Nat) : sampleWidth r ≤ 2 := by unfold sampleWidth; split <;> (try split) <;> omega

example : ∃ tb, new sampleWidth (encodeText [[97, 0x301, 0x4E00], [], [98]]) = some tb ∧ write tb = encodeText [[97, 0x301, 0x4E00], [], [98]] :=
  C54_round_trip_partial sampleWidth rfl sampleWidth_le _ (by simp) (by decide) (by simp; decide)

example : ∃ tb, new sampleWidth (encodeText [[9, 97]]) = some tb ∧ write tb = 32 :: encodeText [[9, 97]] ∧ write tb ≠ encodeText [[9, 97]] :=
  C54_combining_start_changed sampleWidth rfl sampleWidth_le 9 [97] rfl (by decide)

end Verif.Tui

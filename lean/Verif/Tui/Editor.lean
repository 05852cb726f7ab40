/-
The editor widget (tui/editor). Its state is the text buffer, the bounds and the cursor. Go's `int` is
an integer without overflow: the values are lengths of lines and numbers of lines. The styles, the events
posted to the application and the scrolling of the view port (tcell) are not modelled.
-/
import Verif.Tui.TextBuffer

namespace Verif.Tui

/-- `textBufferModel` (model.go:16-26), with `cursorX` and `cursorY` of the view (view.go:19-20). -/
structure Editor where
  tb : Buffer
  width : Int
  height : Int
  x : Int
  y : Int
  cursor : Bool
  hidden : Bool
  viewX : Int
  viewY : Int

/-- `New` and `Init` of an editor (editor.go:54-69): one empty line; width and height are 0. -/
def Editor.init : Editor := ⟨[⟨[], [], []⟩], 0, 0, 0, 0, false, false, 0, 0⟩

/-- A coordinate in `limitCursor` (model.go:48-59). -/
def limit (v size : Int) : Int := if (if v > size - 1 then size - 1 else v) < 0 then 0 else if v > size - 1 then size - 1 else v

/-- `limitCursor` (model.go:44-61). -/
def Editor.limitCursor (e : Editor) : Editor := { e with x := limit e.x e.width, y := limit e.y e.height }

/-- `SetCursor` (model.go:85-91). -/
def Editor.setCursor (e : Editor) (x y : Int) : Editor := { e with x := x, y := y }.limitCursor

/-- `MoveCursor` (model.go:97-103). -/
def Editor.moveCursor (e : Editor) (x y : Int) : Editor := { e with x := e.x + x, y := e.y + y }.limitCursor

/-- `SetContent` (editor.go:23-30); none is a panic. -/
def Editor.setContent (w : Nat → Nat) (e : Editor) (b : Bytes) : Option Editor :=
  (new w b).map fun tb => { e with tb := tb, width := maxLineLenCell tb, height := tb.length }

/-- What a user or an application does with an editor. For the page keys the height of the view port is
given. -/
inductive Op
  | setContent (b : Bytes)
  | enableCursor (on : Bool)
  | hideCursor (on : Bool)
  | up
  | down
  | left
  | right
  | pageUp (vy : Int)
  | pageDown (vy : Int)
  | home
  | fin
  | setCursor (x y : Int)
  | setCursorX (x : Int)
  | setCursorY (y : Int)

/-- A key moves the cursor only if it is enabled; otherwise the view port is scrolled (view.go:75-151). -/
def Editor.key (e e' : Editor) : Editor := if e.cursor then e' else e

/-- `SetCursor` of the view (view.go:278-283). -/
def Editor.viewSetCursor (e : Editor) (x y : Int) : Editor := { e with viewX := x, viewY := y }.setCursor x y

/-- The operations (editor.go:23-52, view.go:75-151, 278-293). -/
def Editor.step (w : Nat → Nat) (e : Editor) : Op → Option Editor
  | .setContent b => e.setContent w b
  | .enableCursor on => some { e with cursor := on }
  | .hideCursor on => some { e with hidden := on }
  | .up => some (e.key (e.moveCursor 0 (-1)))
  | .down => some (e.key (e.moveCursor 0 1))
  | .left => some (e.key (e.moveCursor (-1) 0))
  | .right => some (e.key (e.moveCursor 1 0))
  | .pageUp vy => some (e.key (e.moveCursor 0 (-vy)))
  | .pageDown vy => some (e.key (e.moveCursor 0 vy))
  | .home => some (e.key (e.setCursor 0 0))
  | .fin => some (e.key (e.setCursor e.width e.height))
  | .setCursor x y => some (e.viewSetCursor x y)
  | .setCursorX x => some (e.viewSetCursor x e.viewY)
  | .setCursorY y => some (e.viewSetCursor e.viewX y)

/-- A history. -/
def Editor.steps (w : Nat → Nat) (e : Editor) : List Op → Option Editor
  | [] => some e
  | o :: ops => (e.step w o).bind fun e' => e'.steps w ops

/-! ### specification -/

/-- The operations that move the cursor. -/
def Op.IsMove : Op → Prop
  | .setContent _ => False
  | .enableCursor _ => False
  | .hideCursor _ => False
  | _ => True

/-- The number of cells of the longest line. -/
def Longest (tb : Buffer) (n : Nat) : Prop := (∀ l ∈ tb, l.cells.length ≤ n) ∧ (n = 0 ∨ ∃ l ∈ tb, l.cells.length = n)

/-- The cursor is on an existing line and within, or directly behind, it. -/
def OnText (e : Editor) : Prop := 0 ≤ e.x ∧ ∃ l, 0 ≤ e.y ∧ e.tb[e.y.toNat]? = some l ∧ e.x ≤ l.cells.length

/-! ### lemmas -/

theorem maxLineLen_spec (tb : Buffer) : Longest tb (maxLineLenCell tb) := by
  have h : ∀ (tb : Buffer) (m : Nat), let n := tb.foldl (fun m (l : Line) => if m < l.cells.length then l.cells.length else m) m
      m ≤ n ∧ (∀ l ∈ tb, l.cells.length ≤ n) ∧ (n = m ∨ ∃ l ∈ tb, l.cells.length = n) := by
    intro tb
    induction tb with
    | nil => intro m; exact ⟨Nat.le_refl _, nofun, .inl rfl⟩
    | cons l tb ih =>
      intro m
      obtain ⟨h1, h2, h3⟩ := ih (if m < l.cells.length then l.cells.length else m)
      refine ⟨?_, ?_, ?_⟩
      · refine Nat.le_trans ?_ h1; split <;> omega
      · intro x hx
        rcases List.mem_cons.mp hx with rfl | hx
        · refine Nat.le_trans ?_ h1; split <;> omega
        · exact h2 x hx
      · rcases h3 with h3 | ⟨x, hx, h3⟩
        · by_cases hm : m < l.cells.length
          · refine .inr ⟨l, List.mem_cons_self, ?_⟩
            simp only [List.foldl_cons]
            rw [h3, if_pos hm]
          · refine .inl ?_
            simp only [List.foldl_cons]
            rw [h3, if_neg hm]
        · exact .inr ⟨x, .tail _ hx, h3⟩
  obtain ⟨_, h2, h3⟩ := h tb 0
  exact ⟨h2, h3⟩

theorem limit_range (v size : Int) : 0 ≤ limit v size ∧ (limit v size < size ∨ limit v size = 0) := by
  unfold limit; split <;> split <;> omega

/-- What holds in every history. -/
structure Inv (e : Editor) : Prop where
  lines : e.tb ≠ []
  fresh : (e.width = 0 ∧ e.height = 0 ∧ e.tb.length = 1) ∨ (e.height = e.tb.length ∧ e.width = maxLineLenCell e.tb)
  x : 0 ≤ e.x
  y : 0 ≤ e.y

theorem new_ne_nil {w : Nat → Nat} {b : Bytes} {tb : Buffer} (h : new w b = some tb) : tb ≠ [] := by
  unfold new at h
  cases hs : splitLines b with
  | nil => exact absurd hs (splitLines_ne_nil b)
  | cons r rs =>
    rw [hs, List.mapM_cons] at h
    intro e
    subst e
    cases h1 : parseRow w r with
    | none => simp [h1] at h
    | some l =>
      cases h2 : List.mapM (parseRow w) rs with
      | none => simp [h1, h2] at h
      | some ls => simp [h1, h2] at h

theorem limitCursor_inv {e : Editor} (hl : e.tb ≠ []) (hf : (e.width = 0 ∧ e.height = 0 ∧ e.tb.length = 1) ∨ (e.height = e.tb.length ∧ e.width = maxLineLenCell e.tb)) :
    Inv e.limitCursor := ⟨hl, hf, (limit_range _ _).1, (limit_range _ _).1⟩

theorem setCursor_inv {e : Editor} (h : Inv e) (x y : Int) : Inv (e.setCursor x y) :=
  limitCursor_inv (e := { e with x := x, y := y }) h.lines h.fresh

theorem moveCursor_inv {e : Editor} (h : Inv e) (x y : Int) : Inv (e.moveCursor x y) :=
  limitCursor_inv (e := { e with x := e.x + x, y := e.y + y }) h.lines h.fresh

theorem key_inv {e e' : Editor} (h : Inv e) (h' : Inv e') : Inv (e.key e') := by
  unfold Editor.key; split <;> assumption

theorem step_inv {w : Nat → Nat} {e e' : Editor} {o : Op} (h : Inv e) (hs : e.step w o = some e') : Inv e' := by
  cases o <;> simp only [Editor.step, Option.some.injEq] at hs
  case setContent b =>
    unfold Editor.setContent at hs
    match hn : new w b with
    | none => rw [hn] at hs; cases hs
    | some tb =>
      rw [hn] at hs
      injection hs with hs
      subst hs
      exact ⟨new_ne_nil hn, .inr ⟨rfl, rfl⟩, h.x, h.y⟩
  case enableCursor => subst hs; exact ⟨h.lines, h.fresh, h.x, h.y⟩
  case hideCursor => subst hs; exact ⟨h.lines, h.fresh, h.x, h.y⟩
  case setCursor x y => subst hs; exact setCursor_inv (e := { e with viewX := x, viewY := y }) ⟨h.lines, h.fresh, h.x, h.y⟩ _ _
  case setCursorX x => subst hs; exact setCursor_inv (e := { e with viewX := x, viewY := e.viewY }) ⟨h.lines, h.fresh, h.x, h.y⟩ _ _
  case setCursorY y => subst hs; exact setCursor_inv (e := { e with viewX := e.viewX, viewY := y }) ⟨h.lines, h.fresh, h.x, h.y⟩ _ _
  all_goals
    subst hs
    refine key_inv h ?_
    first | exact moveCursor_inv h _ _ | exact setCursor_inv h _ _

theorem steps_inv {w : Nat → Nat} {ops : List Op} : ∀ {e e' : Editor}, Inv e → e.steps w ops = some e' → Inv e' := by
  induction ops with
  | nil => intro e e' h hs; injection hs with hs; subst hs; exact h
  | cons o ops ih =>
    intro e e' h hs
    simp only [Editor.steps] at hs
    match h1 : e.step w o with
    | none => rw [h1] at hs; cases hs
    | some e1 => rw [h1] at hs; exact ih (step_inv h h1) hs

theorem init_inv : Inv Editor.init := ⟨by simp [Editor.init], .inl ⟨rfl, rfl, rfl⟩, by decide, by decide⟩

theorem limitCursor_on {e : Editor} (hl : e.tb ≠ []) (hf : (e.width = 0 ∧ e.height = 0 ∧ e.tb.length = 1) ∨ (e.height = e.tb.length ∧ e.width = maxLineLenCell e.tb)) :
    e.limitCursor.y < e.limitCursor.tb.length ∧ (e.limitCursor.x = 0 ∨ e.limitCursor.x < maxLineLenCell e.limitCursor.tb) := by
  obtain ⟨_, h1⟩ := limit_range e.x e.width
  obtain ⟨_, h2⟩ := limit_range e.y e.height
  have hp : 0 < e.tb.length := List.length_pos_iff.mpr hl
  refine ⟨?_, ?_⟩
  · show limit e.y e.height < (e.tb.length : Int); omega
  · show limit e.x e.width = 0 ∨ limit e.x e.width < (maxLineLenCell e.tb : Int); omega

theorem steps_append {w : Nat → Nat} {a b : List Op} : ∀ {e : Editor}, e.steps w (a ++ b) = (e.steps w a).bind fun e' => e'.steps w b := by
  induction a with
  | nil => intro e; rfl
  | cons o a ih =>
    intro e
    simp only [List.cons_append, Editor.steps]
    cases e.step w o with
    | none => rfl
    | some e1 => exact ih

/-! ### C55 -/

/-- **C55** No operation panics. -/
theorem C55_no_panic (w : Nat → Nat) (hsp : w 32 = 1) (hw : ∀ r, w r ≤ 2) (ops : List Op) : ∃ e, Editor.init.steps w ops = some e := by
  generalize Editor.init = e0
  induction ops generalizing e0 with
  | nil => exact ⟨e0, rfl⟩
  | cons o ops ih =>
    have : ∃ e1, e0.step w o = some e1 := by
      cases o <;> simp only [Editor.step] <;> try exact ⟨_, rfl⟩
      rename_i b
      obtain ⟨tb, h, _⟩ := mapM_holds hsp hw (splitLines b)
      exact ⟨_, by unfold Editor.setContent new; rw [h]; rfl⟩
    obtain ⟨e1, h1⟩ := this
    obtain ⟨e, h⟩ := ih e1
    exact ⟨e, by simp only [Editor.steps, h1, Option.bind_some, h]⟩

/-- **C55** After any history the cursor has no negative coordinate. If the last operation moves an
enabled cursor, then it is on an existing line, and it is in the first column or in a column of the longest
line. Missing: the cursor may be behind the end of its own line (`C55_beyond_line_violated`), and on
no line at all after the content has been replaced (`C55_no_line_violated`). -/
theorem C55_cursor_partial (w : Nat → Nat) (ops : List Op) (e : Editor) (h : Editor.init.steps w ops = some e) :
    0 ≤ e.x ∧ 0 ≤ e.y ∧ ∀ o e', o.IsMove → e.cursor = true → e.step w o = some e' →
      e'.tb = e.tb ∧ 0 ≤ e'.x ∧ 0 ≤ e'.y ∧ e'.y < e.tb.length ∧ ∃ n, Longest e.tb n ∧ (e'.x = 0 ∨ e'.x < n) := by
  have hi := steps_inv init_inv h
  refine ⟨hi.x, hi.y, fun o e' ho hc hs => ?_⟩
  have hi' := step_inv hi hs
  have key : ∀ x : Editor, e.key x = x := fun x => by unfold Editor.key; rw [if_pos hc]
  have hm : ∃ x y vx vy, e' = { e with x := x, y := y, viewX := vx, viewY := vy }.limitCursor := by
    cases o <;> simp only [Editor.step, Option.some.injEq, key] at hs
    case setContent => exact ho.elim
    case enableCursor => exact ho.elim
    case hideCursor => exact ho.elim
    all_goals exact ⟨_, _, _, _, hs.symm⟩
  obtain ⟨x, y, vx, vy, rfl⟩ := hm
  have := limitCursor_on (e := { e with x := x, y := y, viewX := vx, viewY := vy }) hi.lines hi.fresh
  exact ⟨rfl, hi'.x, hi'.y, this.1, _, maxLineLen_spec e.tb, this.2⟩

/-- **C55** If all lines have the same length, a moved cursor is on the text. -/
theorem C55_cursor_even_partial (w : Nat → Nat) (ops : List Op) (e : Editor) (h : Editor.init.steps w ops = some e) (n : Nat) (hn : ∀ l ∈ e.tb, l.cells.length = n)
    (o : Op) (e' : Editor) (ho : o.IsMove) (hc : e.cursor = true) (hs : e.step w o = some e') : OnText e' := by
  obtain ⟨_, _, h3⟩ := C55_cursor_partial w ops e h
  obtain ⟨h1, h2, h3, h4, m, hm, h5⟩ := h3 o e' ho hc hs
  have hlt : e'.y.toNat < e'.tb.length := by rw [h1]; omega
  refine ⟨h2, e'.tb[e'.y.toNat], h3, List.getElem?_eq_getElem hlt, ?_⟩
  have hmem : e'.tb[e'.y.toNat] ∈ e.tb := by rw [← h1]; exact List.getElem_mem hlt
  rw [hn _ hmem]
  have : m ≤ n := by
    rcases hm.2 with hm | ⟨l, hl, hm⟩
    · omega
    · rw [← hm, hn l hl]; omega
  omega

/-- **C55** The full statement fails: text "abc", newline, "d"; the cursor goes three cells to the right
and one line down: it is in column 2 of a line of one cell. -/
theorem C55_beyond_line_violated : ∃ e, Editor.init.steps (fun _ => 1) [.setContent [97, 98, 99, 10, 100], .enableCursor true, .right, .right, .down] = some e ∧ ¬ OnText e := by
  refine ⟨_, rfl, ?_⟩
  rintro ⟨_, l, _, h2, h3⟩
  injection h2 with h2
  subst h2
  revert h3
  decide

/-- **C55** The full statement fails: the cursor is on the second line and the text is replaced by a
text of one line. The cursor stays where it was. -/
theorem C55_no_line_violated : ∃ e, Editor.init.steps (fun _ => 1) [.setContent [97, 10, 98], .enableCursor true, .down, .setContent [99]] = some e ∧
    e.tb.length = 1 ∧ e.y = 1 ∧ ¬ OnText e := by
  refine ⟨_, rfl, rfl, rfl, ?_⟩
  rintro ⟨_, l, _, h2, _⟩
  cases h2

/-- The hypotheses of the two partial theorems are met. -/
example : ∃ e e', Editor.init.steps (fun _ => 1) [.setContent [97, 98, 10, 99, 100], .enableCursor true, .down] = some e ∧ (∀ l ∈ e.tb, l.cells.length = 2) ∧
    Op.right.IsMove ∧ e.cursor = true ∧ e.step (fun _ => 1) .right = some e' ∧ e'.x = 1 ∧ e'.y = 1 := ⟨_, _, rfl, by decide, trivial, rfl, rfl, rfl, rfl⟩

/-! ### drawing: C102, C103 -/

/-- `GetCell` of the model (model.go:28-39). -/
def modelCell (tb : Buffer) (x y : Nat) : Nat × List Nat × Nat :=
  if tb.length ≤ y ∨ lineLenCell tb y ≤ x then (0, [], 1)
  else if (getCell tb x y).2 = 0 then (runeError, [], 0)
  else match (getCell tb x y).1 with
    | [] => (0, [], 1)
    | r :: c => (r, c, (getCell tb x y).2)

/-- What is drawn in one place: the column, the rune, the combining runes and if it is the cursor. -/
structure Drawn where
  x : Nat
  rune : Nat
  combining : List Nat
  cursor : Bool
  deriving DecidableEq, Repr

/-- One iteration (view.go:54-62). -/
def drawCell (tb : Buffer) (y : Nat) (cur : Nat → Nat → Bool) (x : Nat) : Drawn :=
  ⟨x, if (modelCell tb x y).1 = 0 then 32 else (modelCell tb x y).1, (modelCell tb x y).2.1, cur x y⟩

/-- The loop over the cells of a row, from column `x` on (view.go:53-64). `Row … x out` says that it ends and
that it draws `out`. After an iteration the column is `x + wid - 1 + 1`. -/
inductive Row (tb : Buffer) (y ex : Nat) (cur : Nat → Nat → Bool) : Nat → List Drawn → Prop
  | stop {x} (h : ex ≤ x) : Row tb y ex cur x []
  | next {x out} (h : x < ex) (r : Row tb y ex cur (x + (modelCell tb x y).2.2) out) : Row tb y ex cur x (drawCell tb y cur x :: out)

/-- The cursor (view.go:51, 59): shown if it is enabled, not hidden and at this place. -/
def Editor.cursorAt (e : Editor) (x y : Nat) : Bool := e.cursor && decide ((x : Int) = e.x) && decide ((y : Int) = e.y) && !e.hidden

/-- The number of columns drawn (view.go:42-46), for a view port of width `vx`. -/
def Editor.columns (e : Editor) (vx : Nat) : Nat := if e.width.toNat < vx then vx else e.width.toNat

/-- The number of rows drawn (view.go:42-49), for a view port of height `vy`. -/
def Editor.rows (e : Editor) (vy : Nat) : Nat := if e.height.toNat < vy then vy else e.height.toNat

theorem Row.det {tb : Buffer} {y ex : Nat} {cur : Nat → Nat → Bool} {x : Nat} {a b : List Drawn} (ha : Row tb y ex cur x a) (hb : Row tb y ex cur x b) : a = b := by
  induction ha generalizing b with
  | stop h => cases hb with
    | stop => rfl
    | next h' => omega
  | next h r ih => cases hb with
    | stop h' => omega
    | next h' r' => rw [ih r']

/-! specification -/

/-- The first column of character `i`. -/
def start (w : Nat → Nat) (gs : List Group) (i : Nat) : Nat := ((gs.take i).map fun g => w g.base).sum

/-- The characters of line `y`; none if the line does not exist. A text has only one such list. -/
def Characters (w : Nat → Nat) (tb : Buffer) (y : Nat) (gs : List Group) : Prop :=
  (match tb[y]? with | none => [] | some l => l.runes) = gs.flatMap Group.runes ∧ ∀ g ∈ gs, (w g.base = 1 ∨ w g.base = 2) ∧ ∀ r ∈ g.combining, w r = 0

/-- What is to be drawn: each character in its first column and spaces behind the line. -/
def Shows (w : Nat → Nat) (gs : List Group) (d : Drawn) : Prop :=
  (∃ i g, gs[i]? = some g ∧ d.x = start w gs i ∧ d.rune = g.base ∧ d.combining = g.combining) ∨ (start w gs gs.length ≤ d.x ∧ d.rune = 32 ∧ d.combining = [])

/-! lemmas -/

theorem start_succ {w : Nat → Nat} {gs : List Group} {i : Nat} {g : Group} (h : gs[i]? = some g) : start w gs (i + 1) = start w gs i + w g.base := by
  simp [start, List.take_succ, h]

theorem start_mono (w : Nat → Nat) (gs : List Group) {i j : Nat} (h : i ≤ j) : start w gs i ≤ start w gs j := by
  have e : gs.take j = gs.take i ++ (gs.drop i).take (j - i) := by
    rw [show j = i + (j - i) by omega, List.take_add, show i + (j - i) - i = j - i by omega]
  simp only [start]
  rw [e, List.map_append, List.sum_append]
  omega

theorem cell_start {w : Nat → Nat} {gs : List Group} (h : ∀ g ∈ gs, w g.base = 1 ∨ w g.base = 2) {k : Nat} {g : Group} (hk : gs[k]? = some g) (i : Nat) :
    (cellsFrom w i gs)[start w gs k]? = some ⟨i + k, w g.base⟩ := by
  induction gs generalizing k i with
  | nil => simp at hk
  | cons a gs ih =>
    have ha : (a.cells w i).length = w a.base := by
      unfold Group.cells
      rcases h a List.mem_cons_self with e | e <;> simp [e]
    cases k with
    | zero =>
      injection hk with hk
      subst hk
      simp only [start, cellsFrom, List.take_zero, List.map_nil, List.sum_nil, Group.cells]
      rcases h a List.mem_cons_self with e | e <;> simp [e]
    | succ k =>
      have := ih (fun x hx => h x (.tail _ hx)) (by simpa using hk) (i + 1)
      simp only [start, cellsFrom, List.take_succ_cons, List.map_cons, List.sum_cons] at this ⊢
      rw [List.getElem?_append_right (by omega), ha, show w a.base + (List.map (fun g => w g.base) (List.take k gs)).sum - w a.base = (List.map (fun g => w g.base) (List.take k gs)).sum by omega, this]
      rw [show i + 1 + k = i + (k + 1) by omega]

theorem total {w : Nat → Nat} {l : Line} {gs : List Group} (h : Holds w l gs) : l.cells.length = start w gs gs.length := by
  rw [h.cells, cells_length h.base, start, List.take_length]

/-- A line that is represented. -/
def LineHolds (w : Nat → Nat) (tb : Buffer) (y : Nat) (gs : List Group) : Prop :=
  match tb[y]? with
  | none => gs = []
  | some l => Holds w l gs

theorem modelCell_behind {w : Nat → Nat} {tb : Buffer} {y x : Nat} {gs : List Group} (h : LineHolds w tb y gs) (hx : start w gs gs.length ≤ x) : modelCell tb x y = (0, [], 1) := by
  unfold modelCell
  refine if_pos ?_
  unfold LineHolds at h
  unfold lineLenCell
  cases hy : tb[y]? with
  | none => exact .inl (by simpa using hy)
  | some l =>
    rw [hy] at h
    exact .inr (by rw [← total h] at hx; exact hx)

theorem modelCell_start {w : Nat → Nat} {tb : Buffer} {y i : Nat} {gs : List Group} {g : Group} (h : LineHolds w tb y gs) (hi : gs[i]? = some g) :
    modelCell tb (start w gs i) y = (g.base, g.combining, w g.base) := by
  unfold LineHolds at h
  cases hy : tb[y]? with
  | none => rw [hy] at h; subst h; simp at hi
  | some l =>
    rw [hy] at h
    have hc := cell_start h.base hi 0
    rw [← h.cells, Nat.zero_add] at hc
    have hb := h.base g (List.mem_of_getElem? hi)
    have hlt : start w gs i < l.cells.length := by
      have := (List.getElem?_eq_some_iff.mp hc).1
      exact this
    have hylt : y < tb.length := (List.getElem?_eq_some_iff.mp hy).1
    have hchar : charOf l i = g.base :: g.combining := by
      unfold charOf
      rw [h.chars, h.runes]
      have := charAt [] gs i
      rw [hi] at this
      exact this
    unfold modelCell lineLenCell getCell
    simp only [hy, hc, hchar]
    rw [if_neg (by omega), if_neg (by omega)]

theorem row_draws {w : Nat → Nat} {tb : Buffer} {y : Nat} {gs : List Group} (h : LineHolds w tb y gs) (hb : ∀ g ∈ gs, w g.base = 1 ∨ w g.base = 2) (h0 : w 0 = 0)
    (ex : Nat) (cur : Nat → Nat → Bool) (n : Nat) : ∀ x, ex - x = n → ((∃ i g, gs[i]? = some g ∧ x = start w gs i) ∨ start w gs gs.length ≤ x) →
    ∃ out, Row tb y ex cur x out ∧ (out.map (·.x)).Pairwise (· < ·) ∧ ∀ d, d ∈ out ↔ x ≤ d.x ∧ d.x < ex ∧ Shows w gs d ∧ d.cursor = cur d.x y := by
  induction n using Nat.strongRecOn with
  | _ n ih =>
    intro x hn hx
    by_cases hex : ex ≤ x
    · refine ⟨[], .stop hex, List.Pairwise.nil, fun d => ⟨nofun, fun ⟨h1, h2, _⟩ => by omega⟩⟩
    · rcases hx with ⟨i, g, hi, rfl⟩ | hx
      · have hc := modelCell_start h hi
        have hbg := hb g (List.mem_of_getElem? hi)
        have hg0 : g.base ≠ 0 := fun e => by rw [e, h0] at hbg; omega
        have hpos : 0 < w g.base := by omega
        have hnext : ((∃ j g', gs[j]? = some g' ∧ start w gs i + w g.base = start w gs j) ∨ start w gs gs.length ≤ start w gs i + w g.base) := by
          rw [← start_succ hi]
          by_cases hl : i + 1 < gs.length
          · exact .inl ⟨i + 1, gs[i + 1], List.getElem?_eq_getElem hl, rfl⟩
          · exact .inr (start_mono w gs (by omega))
        obtain ⟨out, r, hp, hm⟩ := ih (ex - (start w gs i + w g.base)) (by clear hnext; omega) (start w gs i + w g.base) rfl hnext
        refine ⟨drawCell tb y cur (start w gs i) :: out, .next (by omega) (by rw [hc]; exact r), ?_, ?_⟩
        · rw [List.map_cons, List.pairwise_cons]
          refine ⟨?_, hp⟩
          intro a ha
          obtain ⟨d, hd, rfl⟩ := List.mem_map.mp ha
          have := ((hm d).mp hd).1
          show start w gs i < d.x
          omega
        · intro d
          have e : drawCell tb y cur (start w gs i) = ⟨start w gs i, g.base, g.combining, cur (start w gs i) y⟩ := by
            unfold drawCell; rw [hc]; simp only [if_neg hg0]
          rw [List.mem_cons, e, hm d]
          constructor
          · rintro (rfl | ⟨h1, h2, h3, h4⟩)
            · exact ⟨Nat.le_refl _, by show start w gs i < ex; omega, .inl ⟨i, g, hi, rfl, rfl, rfl⟩, rfl⟩
            · exact ⟨by omega, h2, h3, h4⟩
          · rintro ⟨h1, h2, h3, h4⟩
            by_cases hd : start w gs i + w g.base ≤ d.x
            · exact .inr ⟨hd, h2, h3, h4⟩
            · refine .inl ?_
              rcases h3 with ⟨j, g', hj, e1, e2, e3⟩ | ⟨e1, _⟩
              · have hji : j = i := by
                  rcases Nat.lt_trichotomy j i with hlt | rfl | hlt
                  · have := start_mono w gs (i := j + 1) (j := i) hlt
                    rw [start_succ hj] at this
                    have := hb g' (List.mem_of_getElem? hj)
                    omega
                  · rfl
                  · have := start_mono w gs (i := i + 1) (j := j) hlt
                    rw [start_succ hi] at this
                    omega
                subst hji
                rw [hi] at hj
                injection hj with hj
                subst hj
                cases d
                simp only at e1 e2 e3 h4
                subst e1 e2 e3 h4
                rfl
              · have hlt : i < gs.length := (List.getElem?_eq_some_iff.mp hi).1
                have := start_mono w gs (i := i + 1) (j := gs.length) hlt
                rw [start_succ hi] at this
                omega
      · have hc := modelCell_behind h hx
        obtain ⟨out, r, hp, hm⟩ := ih (ex - (x + 1)) (by omega) (x + 1) rfl (.inr (by omega))
        refine ⟨drawCell tb y cur x :: out, .next (by omega) (by rw [hc]; exact r), ?_, ?_⟩
        · rw [List.map_cons, List.pairwise_cons]
          refine ⟨?_, hp⟩
          intro a ha
          obtain ⟨d, hd, rfl⟩ := List.mem_map.mp ha
          have := ((hm d).mp hd).1
          show x < d.x
          omega
        · intro d
          have e : drawCell tb y cur x = ⟨x, 32, [], cur x y⟩ := by
            unfold drawCell; rw [hc]; rfl
          rw [List.mem_cons, e, hm d]
          constructor
          · rintro (rfl | ⟨h1, h2, h3, h4⟩)
            · exact ⟨Nat.le_refl _, by show x < ex; omega, .inr ⟨hx, rfl, rfl⟩, rfl⟩
            · exact ⟨by omega, h2, h3, h4⟩
          · rintro ⟨h1, h2, h3, h4⟩
            by_cases hd : x + 1 ≤ d.x
            · exact .inr ⟨hd, h2, h3, h4⟩
            · refine .inl ?_
              have hdx : d.x = x := by omega
              rcases h3 with ⟨j, g', hj, e1, e2, e3⟩ | ⟨_, e2, e3⟩
              · have hlt : j < gs.length := (List.getElem?_eq_some_iff.mp hj).1
                have := start_mono w gs (i := j + 1) (j := gs.length) hlt
                rw [start_succ hj] at this
                have := hb g' (List.mem_of_getElem? hj)
                omega
              · cases d
                simp only at hdx e2 e3 h4
                subst hdx e2 e3 h4
                rfl

theorem history_lines {w : Nat → Nat} (hsp : w 32 = 1) (hw : ∀ r, w r ≤ 2) {ops : List Op} : ∀ {e e' : Editor}, (∀ l ∈ e.tb, ∃ gs, Holds w l gs) → e.steps w ops = some e' →
    ∀ l ∈ e'.tb, ∃ gs, Holds w l gs := by
  induction ops with
  | nil => intro e e' h hs; injection hs with hs; subst hs; exact h
  | cons o ops ih =>
    intro e e' h hs
    simp only [Editor.steps] at hs
    match h1 : e.step w o with
    | none => rw [h1] at hs; cases hs
    | some e1 =>
      rw [h1] at hs
      refine ih ?_ hs
      cases o
      case setContent b =>
        simp only [Editor.step, Editor.setContent] at h1
        obtain ⟨tb, h2, _, h3⟩ := mapM_holds hsp hw (splitLines b)
        have h2' : new w b = some tb := h2
        rw [h2'] at h1
        injection h1 with h1
        subst h1
        exact h3
      all_goals
        simp only [Editor.step, Option.some.injEq] at h1
        subst h1
        first | exact h | (unfold Editor.key; split <;> exact h)

theorem history_line {w : Nat → Nat} (hsp : w 32 = 1) (hw : ∀ r, w r ≤ 2) {ops : List Op} {e : Editor} (h : Editor.init.steps w ops = some e) (y : Nat) :
    ∃ gs, LineHolds w e.tb y gs ∧ Characters w e.tb y gs := by
  have hl := history_lines hsp hw (e := Editor.init) (fun l hl => ⟨[], by rw [List.mem_singleton.mp hl]; exact ⟨rfl, rfl, rfl, nofun, nofun⟩⟩) h
  cases hy : e.tb[y]? with
  | none => exact ⟨[], by unfold LineHolds; rw [hy], by unfold Characters; rw [hy]; exact ⟨rfl, nofun⟩⟩
  | some l =>
    obtain ⟨gs, hg⟩ := hl l (List.mem_of_getElem? hy)
    exact ⟨gs, by unfold LineHolds; rw [hy]; exact hg, by unfold Characters; rw [hy]; exact ⟨hg.runes, fun g hx => ⟨hg.base g hx, hg.combining g hx⟩⟩⟩

/-- **C102** After any history the drawing of every row ends; it draws, in increasing columns, every
character of the line that is in view exactly once, in the first of its columns and with all its combining
runes, and spaces behind the line, and nothing else. -/
theorem C102_draw (w : Nat → Nat) (hsp : w 32 = 1) (hw : ∀ r, w r ≤ 2) (h0 : w 0 = 0) (ops : List Op) (e : Editor) (h : Editor.init.steps w ops = some e) (vx y : Nat) :
    ∃ gs out, Characters w e.tb y gs ∧ Row e.tb y (e.columns vx) e.cursorAt 0 out ∧ (out.map (·.x)).Pairwise (· < ·) ∧
      ∀ d, d ∈ out ↔ d.x < e.columns vx ∧ Shows w gs d ∧ d.cursor = e.cursorAt d.x y := by
  obtain ⟨gs, hl, hc⟩ := history_line hsp hw h y
  have hb : ∀ g ∈ gs, w g.base = 1 ∨ w g.base = 2 := fun g hg => (hc.2 g hg).1
  have h1 : (∃ i g, gs[i]? = some g ∧ 0 = start w gs i) ∨ start w gs gs.length ≤ 0 := by
    cases gs with
    | nil => exact .inr (by simp [start])
    | cons g gs => exact .inl ⟨0, g, rfl, by simp [start]⟩
  obtain ⟨out, r, hp, hm⟩ := row_draws hl hb h0 (e.columns vx) e.cursorAt _ 0 rfl h1
  exact ⟨gs, out, hc, r, hp, fun d => by rw [hm d]; simp⟩

/-- **C102** No character is cut off: all of the columns of the text are drawn, if the text has been
set. -/
theorem C102_all_columns (w : Nat → Nat) (ops : List Op) (e : Editor) (h : Editor.init.steps w ops = some e) (vx vy : Nat) (l : Line) (y : Nat) (hy : e.tb[y]? = some l)
    (b : Bytes) (hb : Op.setContent b ∈ ops) : l.cells.length ≤ e.columns vx ∧ y < e.rows vy := by
  have hset : e.height = e.tb.length ∧ e.width = maxLineLenCell e.tb := by
    have key : ∀ (ops : List Op) (e0 e' : Editor), e0.steps w ops = some e' → ((e0.height = e0.tb.length ∧ e0.width = maxLineLenCell e0.tb) ∨ Op.setContent b ∈ ops) →
        e'.height = e'.tb.length ∧ e'.width = maxLineLenCell e'.tb := by
      intro ops
      induction ops with
      | nil =>
        intro e0 e' hs hb
        injection hs with hs
        subst hs
        exact hb.resolve_right nofun
      | cons o ops ih =>
        intro e0 e' hs hb
        simp only [Editor.steps] at hs
        match h1 : e0.step w o with
        | none => rw [h1] at hs; cases hs
        | some e1 =>
          rw [h1] at hs
          refine ih e1 e' hs ?_
          cases o
          case setContent b' =>
            left
            simp only [Editor.step, Editor.setContent] at h1
            cases hn : new w b' with
            | none => rw [hn] at h1; cases h1
            | some tb =>
              rw [hn] at h1
              injection h1 with h1
              subst h1
              exact ⟨rfl, rfl⟩
          all_goals
            simp only [Editor.step, Option.some.injEq] at h1
            subst h1
            rcases hb with hb | hb
            · left
              first | exact hb | (unfold Editor.key; split <;> exact hb)
            · right
              cases hb
              assumption
    exact key ops _ _ h (.inr hb)
  have h1 := (maxLineLen_spec e.tb).1 l (List.mem_of_getElem? hy)
  have h2 : y < e.tb.length := (List.getElem?_eq_some_iff.mp hy).1
  unfold Editor.columns Editor.rows
  rw [hset.1, hset.2]
  simp only [Int.toNat_natCast]
  constructor
  · split <;> omega
  · split <;> omega

theorem span_unique {w : Nat → Nat} {a b r s : List Nat} (ha : ∀ x ∈ a, w x = 0) (hb : ∀ x ∈ b, w x = 0) (hr : ∀ x, r.head? = some x → w x ≠ 0)
    (hs : ∀ x, s.head? = some x → w x ≠ 0) (h : a ++ r = b ++ s) : a = b ∧ r = s := by
  induction a generalizing b with
  | nil =>
    cases b with
    | nil => exact ⟨rfl, h⟩
    | cons x b => exact absurd (hb x List.mem_cons_self) (hr x (by rw [show r = x :: b ++ s from h]; rfl))
  | cons x a ih =>
    cases b with
    | nil => exact absurd (ha x List.mem_cons_self) (hs x (by rw [show s = x :: a ++ r from h.symm]; rfl))
    | cons y b =>
      injection h with h1 h2
      obtain ⟨h3, h4⟩ := ih (fun x hx => ha x (.tail _ hx)) (fun x hx => hb x (.tail _ hx)) h2
      exact ⟨by rw [h1, h3], h4⟩

theorem groups_head {w : Nat → Nat} {gs : List Group} (h : ∀ g ∈ gs, (w g.base = 1 ∨ w g.base = 2) ∧ ∀ r ∈ g.combining, w r = 0) :
    ∀ x, (gs.flatMap Group.runes).head? = some x → w x ≠ 0 := by
  intro x hx
  cases gs with
  | nil => simp at hx
  | cons g gs =>
    simp [Group.runes] at hx
    subst hx
    have := (h g List.mem_cons_self).1
    omega

theorem groups_unique {w : Nat → Nat} {gs gs' : List Group} (h : ∀ g ∈ gs, (w g.base = 1 ∨ w g.base = 2) ∧ ∀ r ∈ g.combining, w r = 0)
    (h' : ∀ g ∈ gs', (w g.base = 1 ∨ w g.base = 2) ∧ ∀ r ∈ g.combining, w r = 0) (e : gs.flatMap Group.runes = gs'.flatMap Group.runes) : gs = gs' := by
  induction gs generalizing gs' with
  | nil =>
    cases gs' with
    | nil => rfl
    | cons g gs' => simp [Group.runes] at e
  | cons g gs ih =>
    cases gs' with
    | nil => simp [Group.runes] at e
    | cons g' gs' =>
      simp only [List.flatMap_cons, Group.runes, List.cons_append, List.cons.injEq] at e
      obtain ⟨h1, h2⟩ := span_unique (h g List.mem_cons_self).2 (h' g' List.mem_cons_self).2 (groups_head fun x hx => h x (.tail _ hx)) (groups_head fun x hx => h' x (.tail _ hx)) e.2
      rw [ih (fun x hx => h x (.tail _ hx)) (fun x hx => h' x (.tail _ hx)) h2]
      cases g; cases g'
      simp only at e h1
      rw [e.1, h1]

/-- A text has only one list of characters. -/
theorem characters_unique {w : Nat → Nat} {tb : Buffer} {y : Nat} {gs gs' : List Group} (h : Characters w tb y gs) (h' : Characters w tb y gs') : gs = gs' :=
  groups_unique h.2 h'.2 (h.1.symm.trans h'.1)

/-! ### C103, C104 -/

/-- **C103** The cursor is drawn at most once in all rows, and only at its coordinates. If it is enabled,
not hidden, in view and on no second column of a wide character, then it is drawn. Missing: on the second
column of a wide character it is drawn nowhere (`C103_cursor_lost_violated`). -/
theorem C103_cursor_shown_partial (w : Nat → Nat) (hsp : w 32 = 1) (hw : ∀ r, w r ≤ 2) (h0 : w 0 = 0) (ops : List Op) (e : Editor) (h : Editor.init.steps w ops = some e) (vx : Nat) :
    (∀ y out d, Row e.tb y (e.columns vx) e.cursorAt 0 out → d ∈ out → d.cursor = true → e.cursor = true ∧ e.hidden = false ∧ (d.x : Int) = e.x ∧ (y : Int) = e.y) ∧
    (e.cursor = true → e.hidden = false → e.x < e.columns vx → ∀ gs, Characters w e.tb e.y.toNat gs → (∀ i g, gs[i]? = some g → w g.base = 2 → e.x ≠ start w gs i + 1) →
      ∃ out d, Row e.tb e.y.toNat (e.columns vx) e.cursorAt 0 out ∧ d ∈ out ∧ d.cursor = true) := by
  refine ⟨?_, ?_⟩
  · intro y out d hr hd hc
    obtain ⟨gs, out', _, hr', _, hm⟩ := C102_draw w hsp hw h0 ops e h vx y
    rw [hr.det hr', hm] at hd
    have := hd.2.2
    rw [hc] at this
    simp [Editor.cursorAt] at this
    grind
  · intro hc hh hx gs hg hns
    have hi := steps_inv init_inv h
    obtain ⟨gs', hl, hg'⟩ := history_line hsp hw h e.y.toNat
    have := characters_unique hg hg'
    subst this
    obtain ⟨gs', out, hg', hr, _, hm⟩ := C102_draw w hsp hw h0 ops e h vx e.y.toNat
    have := characters_unique hg hg'
    subst this
    have hxn : (e.x.toNat : Int) = e.x := Int.toNat_of_nonneg hi.x
    have hyn : (e.y.toNat : Int) = e.y := Int.toNat_of_nonneg hi.y
    have hcur : e.cursorAt e.x.toNat e.y.toNat = true := by simp [Editor.cursorAt, hc, hh, hxn, hyn]
    have hxlt : e.x.toNat < e.columns vx := by omega
    by_cases hend : start w gs gs.length ≤ e.x.toNat
    · exact ⟨out, ⟨e.x.toNat, 32, [], true⟩, hr, (hm _).mpr ⟨hxlt, .inr ⟨hend, rfl, rfl⟩, hcur.symm⟩, rfl⟩
    · unfold LineHolds at hl
      cases hy : e.tb[e.y.toNat]? with
      | none => rw [hy] at hl; subst hl; simp [start] at hend
      | some l =>
        rw [hy] at hl
        have hlt : e.x.toNat < l.cells.length := by rw [total hl]; omega
        have hc' : (cellsFrom w 0 gs)[e.x.toNat]? = some l.cells[e.x.toNat] :=
          (congrArg (fun c : List Cell => c[e.x.toNat]?) (Holds.cells hl)).symm.trans (List.getElem?_eq_getElem hlt)
        obtain ⟨_, g, hg1, hg2⟩ := cell_at hl.base 0 e.x.toNat _ hc'
        rcases hg2 with ⟨hg2, _⟩ | ⟨hg2, hg3, _⟩
        · exact ⟨out, ⟨e.x.toNat, g.base, g.combining, true⟩, hr, (hm _).mpr ⟨hxlt, .inl ⟨_, g, hg1, hg2, rfl, rfl⟩, hcur.symm⟩, rfl⟩
        · refine absurd ?_ (hns _ g hg1 hg3)
          have hg4 : e.x.toNat = start w gs (l.cells[e.x.toNat].charIndex - 0) + 1 := hg2
          omega

/-- **C103** The full statement fails: in a text with a wide character, here U+4E00, the cursor is moved one
column to the right; then it is enabled, not hidden, and in view, but no row shows it. -/
theorem C103_cursor_lost_violated : ∃ e, Editor.init.steps (fun r => if r = 0 then 0 else if r = 0x4E00 then 2 else 1)
      [.setContent [0xE4, 0xB8, 0x80, 97], .enableCursor true, .right] = some e ∧ e.cursor = true ∧ e.hidden = false ∧ e.x < e.columns 80 ∧ e.y < e.rows 25 ∧
    ∀ y out d, Row e.tb y (e.columns 80) e.cursorAt 0 out → d ∈ out → d.cursor = false := by
  refine ⟨_, rfl, rfl, rfl, by decide, by decide, ?_⟩
  intro y out d hr hd
  let w : Nat → Nat := fun r => if r = 0 then 0 else if r = 0x4E00 then 2 else 1
  have hw : ∀ r, w r ≤ 2 := fun r => by show (if r = 0 then 0 else if r = 0x4E00 then 2 else 1) ≤ 2; split <;> (try split) <;> omega
  have h := C103_cursor_shown_partial w rfl hw rfl [.setContent [0xE4, 0xB8, 0x80, 97], .enableCursor true, .right] _ rfl 80
  cases hdc : d.cursor with
  | false => rfl
  | true =>
    obtain ⟨_, _, h1, h2⟩ := h.1 y out d hr hd hdc
    obtain ⟨gs, out', hg, hr', _, hm⟩ := C102_draw w rfl hw rfl [.setContent [0xE4, 0xB8, 0x80, 97], .enableCursor true, .right] _ rfl 80 y
    have hy : y = 0 := by
      have : (y : Int) = 0 := h2
      omega
    subst hy
    have hgs := characters_unique hg (gs' := [⟨0x4E00, []⟩, ⟨97, []⟩]) ⟨rfl, by decide⟩
    subst hgs
    have hx : d.x = 1 := by
      have : (d.x : Int) = 1 := h1
      omega
    rw [hr.det hr', hm] at hd
    rcases hd.2.1 with ⟨i, g, hi, e1, _⟩ | ⟨e1, _⟩
    · match i, hi with
      | 0, _ => rw [hx] at e1; revert e1; decide
      | 1, _ => rw [hx] at e1; revert e1; decide
      | i + 2, hi => simp at hi
    · rw [hx] at e1; revert e1; decide

/-- **C104** Setting the column keeps the row, and setting the row keeps the column, if the cursor has not been moved by keys and no
coordinate was out of range. Missing: `C104_set_column_violated`. -/
theorem C104_set_column_partial (w : Nat → Nat) (ops : List Op) (e : Editor) (h : Editor.init.steps w ops = some e) (hlast : e.viewX = e.x ∧ e.viewY = e.y) (x y : Int)
    (hh : e.y < e.height ∨ e.y = 0) (hv : e.x < e.width ∨ e.x = 0) :
    (∀ e', e.step w (.setCursorX x) = some e' → e'.y = e.y) ∧ ∀ e', e.step w (.setCursorY y) = some e' → e'.x = e.x := by
  have hi := steps_inv init_inv h
  have h1 := hi.x
  have h2 := hi.y
  refine ⟨fun e' hs => ?_, fun e' hs => ?_⟩
  · simp only [Editor.step, Option.some.injEq] at hs
    subst hs
    show limit e.viewY e.height = e.y
    rw [hlast.2]
    unfold limit
    split <;> split <;> omega
  · simp only [Editor.step, Option.some.injEq] at hs
    subst hs
    show limit e.viewX e.width = e.x
    rw [hlast.1]
    unfold limit
    split <;> split <;> omega

/-- **C104** The full statement fails: after one key down the cursor is in the second line; setting the
column moves it back to the first line. -/
theorem C104_set_column_violated : ∃ e e', Editor.init.steps (fun _ => 1) [.setContent [97, 98, 10, 99, 100], .enableCursor true, .down] = some e ∧ e.y = 1 ∧
    e.step (fun _ => 1) (.setCursorX 1) = some e' ∧ e'.y = 0 := ⟨_, _, rfl, rfl, rfl, rfl⟩

example : ∃ e, Editor.init.steps (fun _ => 1) [.setContent [97, 98, 10, 99, 100], .setCursor 0 1] = some e ∧ (e.viewX = e.x ∧ e.viewY = e.y) ∧ e.y < e.height ∧ e.x < e.width :=
  ⟨_, rfl, ⟨rfl, rfl⟩, by decide, by decide⟩

/-- The hypotheses of `C102_draw` and of `C103_cursor_shown_partial` are met, with a cursor on a wide character. -/
example : ∃ e, Editor.init.steps sampleWidth [.setContent [97, 0xE4, 0xB8, 0x80, 98], .enableCursor true, .right] = some e ∧ e.cursor = true ∧ e.hidden = false ∧ e.x = 1 ∧
    e.x < e.columns 80 ∧ Characters sampleWidth e.tb e.y.toNat [⟨97, []⟩, ⟨0x4E00, []⟩, ⟨98, []⟩] := ⟨_, rfl, rfl, rfl, rfl, by decide, rfl, by decide⟩

end Verif.Tui

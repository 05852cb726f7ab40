/-
Where the keys of the editor move the cursor (tui/editor/view.go:75-151, tui/editor/model.go:44-103).
-/
import Verif.Tui.Editor

set_option autoImplicit false

namespace Verif.Tui

/-- Where a key moves a cursor in a text of this many columns and lines. -/
def Moves (cols rows x y : Int) : Op → Int → Int → Prop
  | .left, x', y' => x' = (if x = 0 then 0 else x - 1) ∧ y' = y
  | .right, x', y' => x' = (if x + 1 < cols then x + 1 else x) ∧ y' = y
  | .up, x', y' => x' = x ∧ y' = if y = 0 then 0 else y - 1
  | .down, x', y' => x' = x ∧ y' = if y + 1 < rows then y + 1 else y
  | .pageUp n, x', y' => x' = x ∧ (0 ≤ n → y' = if n ≤ y then y - n else 0)
  | .pageDown n, x', y' => x' = x ∧ (0 ≤ n → y' = if y + n < rows then y + n else rows - 1)
  | .home, x', y' => x' = 0 ∧ y' = 0
  | .fin, x', y' => x' = (if cols = 0 then 0 else cols - 1) ∧ y' = rows - 1
  | .setCursor a b, x', y' => (0 ≤ a → a < cols → x' = a) ∧ (0 ≤ b → b < rows → y' = b)
  | _, _, _ => True

/-- The keys. -/
def Op.IsKey : Op → Prop
  | .up | .down | .left | .right | .pageUp _ | .pageDown _ | .home | .fin => True
  | _ => False

theorem set_bounds {w : Nat → Nat} {b : Bytes} : ∀ (ops : List Op) (e0 e : Editor), e0.steps w ops = some e →
    ((e0.height = e0.tb.length ∧ e0.width = maxLineLenCell e0.tb) ∨ Op.setContent b ∈ ops) → e.height = e.tb.length ∧ e.width = maxLineLenCell e.tb := by
  intro ops
  induction ops with
  | nil =>
    intro e0 e' hs hb
    injection hs with hs
    subst hs
    exact hb.resolve_right nofun
  | cons o ops ih =>
    intro e0 e' hs hb
    simp only [Editor.steps] at hs
    cases ho : e0.step w o with
    | none => rw [ho] at hs; cases hs
    | some e1 =>
      rw [ho] at hs
      refine ih e1 e' hs ?_
      cases o
      case setContent c =>
        left
        simp only [Editor.step, Editor.setContent] at ho
        obtain ⟨tb, _, rfl⟩ := Option.map_eq_some_iff.1 ho
        exact ⟨rfl, rfl⟩
      all_goals
        rcases hb with hb | hb
        · left
          simp only [Editor.step, Option.some.injEq] at ho
          subst ho
          first
            | exact hb
            | (unfold Editor.key; split <;> exact hb)
        · right
          rcases List.mem_cons.1 hb with hb | hb
          · cases hb
          · exact hb

/-- C129: an enabled cursor in the text goes where the key says: one cell or one page, but never off the text; Home is its first
cell, End the last column of the last line. The text does not change. -/
theorem C129_keys (w : Nat → Nat) (ops : List Op) (e : Editor) (h : Editor.init.steps w ops = some e) (b : Bytes) (hb : Op.setContent b ∈ ops)
    (hc : e.cursor = true) (n : Nat) (hn : Longest e.tb n) (hx : e.x = 0 ∨ e.x < n) (hy : e.y < e.tb.length) (o : Op) (hk : o.IsMove)
    (e' : Editor) (hs : e.step w o = some e') : Moves n e.tb.length e.x e.y o e'.x e'.y ∧ e'.tb = e.tb ∧ e'.cursor = true ∧ e'.hidden = e.hidden := by
  have hi := steps_inv init_inv h
  obtain ⟨hh, hw⟩ := set_bounds (w := w) (b := b) ops Editor.init e h (.inr hb)
  have hN : n = maxLineLenCell e.tb := by
    have hm := maxLineLen_spec e.tb
    have h1 : n ≤ maxLineLenCell e.tb := by
      rcases hn.2 with h0 | ⟨l, hl, hl'⟩
      · omega
      · rw [← hl']; exact hm.1 l hl
    have h2 : maxLineLenCell e.tb ≤ n := by
      rcases hm.2 with h0 | ⟨l, hl, hl'⟩
      · omega
      · rw [← hl']; exact hn.1 l hl
    omega
  rw [← hN] at hw
  have h1 := hi.x
  have h2 := hi.y
  have key : ∀ x : Editor, e.key x = x := fun x => by unfold Editor.key; rw [if_pos hc]
  cases o <;> simp only [Editor.step, Option.some.injEq, key] at hs
  case setContent => exact hk.elim
  case enableCursor => exact hk.elim
  case hideCursor => exact hk.elim
  all_goals
    subst hs
    refine ⟨?_, rfl, hc, rfl⟩
    simp only [Moves, Editor.moveCursor, Editor.setCursor, Editor.viewSetCursor, Editor.limitCursor, limit, hh, hw]
    try grind

/-- C129: if the cursor is not enabled no key moves it. -/
theorem C129_disabled (w : Nat → Nat) (e e' : Editor) (hc : e.cursor = false) (o : Op) (hk : o.IsKey) (hs : e.step w o = some e') : e' = e := by
  have key : ∀ x : Editor, e.key x = e := fun x => by unfold Editor.key; rw [hc]; rfl
  cases o <;> simp only [Editor.step, Option.some.injEq, key] at hs
  case setContent => exact hk.elim
  case enableCursor => exact hk.elim
  case hideCursor => exact hk.elim
  case setCursor => exact hk.elim
  case setCursorX => exact hk.elim
  case setCursorY => exact hk.elim
  all_goals exact hs.symm

/-- C129: from any place every cell of the text can be reached with the keys: Home, then right and down. -/
theorem C129_reach (w : Nat → Nat) (ops : List Op) (e : Editor) (h : Editor.init.steps w ops = some e) (b : Bytes) (hb : Op.setContent b ∈ ops)
    (hc : e.cursor = true) (n : Nat) (hn : Longest e.tb n) (x y : Nat) (hx : x < n) (hy : y < e.tb.length) :
    ∃ e', e.steps w (.home :: (List.replicate x .right ++ List.replicate y .down)) = some e' ∧ e'.x = x ∧ e'.y = y ∧ e'.tb = e.tb := by
  -- Home
  obtain ⟨e0, h0⟩ : ∃ e0, e.step w .home = some e0 := ⟨_, rfl⟩
  have hk : ∀ v : Editor, e.key v = v := fun v => by unfold Editor.key; rw [if_pos hc]
  obtain ⟨hh, hw⟩ := set_bounds (w := w) (b := b) ops Editor.init e h (.inr hb)
  have p0 : e0.x = 0 ∧ e0.y = 0 ∧ e0.tb = e.tb ∧ e0.cursor = true := by
    simp only [Editor.step, Option.some.injEq, hk] at h0
    subst h0
    refine ⟨?_, ?_, rfl, hc⟩
    · show limit 0 e.width = 0
      unfold limit; grind
    · show limit 0 e.height = 0
      unfold limit; grind
  have s0 : Editor.init.steps w (ops ++ [.home]) = some e0 := by
    rw [steps_append, h]
    simp only [Option.bind_some, Editor.steps, h0]
  have right : ∀ k : Nat, k ≤ x → ∃ e1, e0.steps w (List.replicate k .right) = some e1 ∧ e1.x = k ∧ e1.y = 0 ∧ e1.tb = e.tb ∧ e1.cursor = true := by
    intro k
    induction k with
    | zero => intro _; exact ⟨e0, rfl, p0.1, p0.2.1, p0.2.2.1, p0.2.2.2⟩
    | succ k ih =>
      intro hk1
      obtain ⟨e1, a1, a2, a3, a4, a5⟩ := ih (by omega)
      obtain ⟨e2, a6⟩ : ∃ e2, e1.step w .right = some e2 := ⟨_, rfl⟩
      have reach : Editor.init.steps w ((ops ++ [.home]) ++ List.replicate k .right) = some e1 := by rw [steps_append, s0]; exact a1
      obtain ⟨m, m1, m2, _⟩ := C129_keys w _ e1 reach b (by simp [hb]) a5 n (by rw [a4]; exact hn) (by omega) (by rw [a4, a3]; omega) .right trivial e2 a6
      refine ⟨e2, ?_, ?_, ?_, by rw [m1, a4], m2⟩
      · rw [List.replicate_succ', steps_append, a1]
        simp only [Option.bind_some, Editor.steps, a6]
      · have := m.1
        rw [if_pos (by omega)] at this
        omega
      · have := m.2; omega
  obtain ⟨e1, a1, a2, a3, a4, a5⟩ := right x (Nat.le_refl _)
  have s1 : Editor.init.steps w ((ops ++ [.home]) ++ List.replicate x .right) = some e1 := by rw [steps_append, s0]; exact a1
  have down : ∀ k : Nat, k ≤ y → ∃ e2, e1.steps w (List.replicate k .down) = some e2 ∧ e2.x = x ∧ e2.y = k ∧ e2.tb = e.tb ∧ e2.cursor = true := by
    intro k
    induction k with
    | zero => intro _; exact ⟨e1, rfl, a2, a3, a4, a5⟩
    | succ k ih =>
      intro hk1
      obtain ⟨e2, b1, b2, b3, b4, b5⟩ := ih (by omega)
      obtain ⟨e3, b6⟩ : ∃ e3, e2.step w .down = some e3 := ⟨_, rfl⟩
      have reach : Editor.init.steps w (((ops ++ [.home]) ++ List.replicate x .right) ++ List.replicate k .down) = some e2 := by rw [steps_append, s1]; exact b1
      obtain ⟨m, m1, m2, _⟩ := C129_keys w _ e2 reach b (by simp [hb]) b5 n (by rw [b4]; exact hn) (by omega) (by rw [b4, b3]; omega) .down trivial e3 b6
      refine ⟨e3, ?_, ?_, ?_, by rw [m1, b4], m2⟩
      · rw [List.replicate_succ', steps_append, b1]
        simp only [Option.bind_some, Editor.steps, b6]
      · have := m.1; omega
      · have := m.2
        rw [b4, if_pos (by omega)] at this
        omega
  obtain ⟨e2, b1, b2, b3, b4, _⟩ := down y (Nat.le_refl _)
  refine ⟨e2, ?_, b2, b3, b4⟩
  simp only [Editor.steps, h0, Option.bind_some]
  rw [steps_append, a1]
  exact b1

/-- The hypotheses are met by a text of two lines with the cursor in the middle. -/
example : ∃ e, Editor.init.steps (fun _ => 1) [.setContent [97, 98, 99, 10, 100], .enableCursor true, .right] = some e ∧ e.cursor = true ∧
    Longest e.tb 3 ∧ e.x = 1 ∧ e.y = 0 ∧ e.tb.length = 2 := ⟨_, rfl, rfl, ⟨by decide, .inr (by decide)⟩, rfl, rfl, rfl⟩

end Verif.Tui

/-
C113: the passphrase of a database is the one that was given twice.
-/
import Verif.Ctrl.Scanner

namespace Verif.Ctrl.Scan

/-! ### lines -/

theorem findIdx_nl (l : Bytes) : l.findIdx? (· = 10) = none ∧ (∀ c ∈ l, c ≠ 10) ∨
    ∃ i, l.findIdx? (· = 10) = some i ∧ i < l.length ∧ l.take i = l.takeWhile (· ≠ 10) ∧ l.drop (i + 1) = (l.dropWhile (· ≠ 10)).drop 1 := by
  induction l with
  | nil => exact .inl ⟨rfl, by simp⟩
  | cons c l ih =>
    rw [List.findIdx?_cons]
    by_cases hc : c = 10
    · subst hc
      exact .inr ⟨0, by simp⟩
    · rcases ih with ⟨h1, h2⟩ | ⟨i, h1, h2, h3, h4⟩
      · refine .inl ⟨by simp [hc, h1], ?_⟩
        intro x hx
        rcases List.mem_cons.mp hx with rfl | hx
        · exact hc
        · exact h2 x hx
      · refine .inr ⟨i + 1, ?_, ?_, ?_, ?_⟩
        · simp [hc, h1]
        · simpa using h2
        · rw [List.take_succ_cons, h3, List.takeWhile_cons_of_pos (by simpa using hc)]
        · rw [List.drop_succ_cons, h4, List.dropWhile_cons_of_pos (by simpa using hc)]

theorem firstLine_eq (inp : Bytes) : firstLine inp = dropCR (inp.takeWhile (· ≠ 10)) := rfl

theorem takeWhile_all {l : Bytes} (h : ∀ c ∈ l, c ≠ 10) : l.takeWhile (· ≠ 10) = l := by
  induction l with
  | nil => rfl
  | cons c l ih =>
    rw [List.takeWhile_cons_of_pos (by simpa using h c (List.mem_cons_self ..)), ih fun x hx => h x (List.mem_cons_of_mem _ hx)]

theorem dropWhile_all {l : Bytes} (h : ∀ c ∈ l, c ≠ 10) : l.dropWhile (· ≠ 10) = [] := by
  induction l with
  | nil => rfl
  | cons c l ih =>
    rw [List.dropWhile_cons_of_pos (by simpa using h c (List.mem_cons_self ..)), ih fun x hx => h x (List.mem_cons_of_mem _ hx)]

theorem dropCR_prefix (l : Bytes) : l.take (dropCR l).length = dropCR l := by
  unfold dropCR
  split
  · rw [List.length_dropLast, ← List.dropLast_eq_take]
  · exact List.take_length

theorem dropCR_length (l : Bytes) : (dropCR l).length ≤ l.length := by
  unfold dropCR
  split
  · rw [List.length_dropLast]; omega
  · exact Nat.le_refl _

/-! ### a short input -/

/-- The state of a scanner that has read `m` bytes of a short input and is at position `a`. -/
structure Inv (inp : Bytes) (s : Scanner) (a m : Nat) : Prop where
  am : a ≤ m
  ml : m ≤ inp.length
  data : s.buf.take m = inp.take m
  rest : s.input.flatten = inp.drop m
  shape : (s.buf = [] ∧ s.old = [] ∧ m = 0) ∨ (s.buf.length = 4096 ∧ s.old = [[]])
  err : s.err = none ∨ (s.err = some s.last ∧ s.input = [])
  pos : (s.start = a ∧ s.stop = m) ∨ (s.start = 0 ∧ s.stop = 0 ∧ s.err.isSome = true ∧ a = inp.length)

theorem Inv.view {inp : Bytes} {s : Scanner} {a m : Nat} (h : Inv inp s a m) (hs : s.old = [[]]) {off len : Nat} (hl : off + len ≤ m) :
    s.view ⟨1, off, len⟩ = (inp.drop off).take len := by
  unfold Scanner.view
  rw [hs]
  simp only [List.cons_append, List.nil_append, List.getD_cons_succ, List.getD_cons_zero]
  have := h.data
  have e : ((s.buf.take m).drop off).take len = ((inp.take m).drop off).take len := by rw [this]
  rwa [List.drop_take, List.drop_take, List.take_take, List.take_take, Nat.min_eq_left (by omega)] at e

/-- Reads that are still possible. -/
def fuel (s : Scanner) : Nat := if s.err.isSome = true then 1 else s.input.flatten.length + s.input.length + 2

theorem Inv.slice {inp : Bytes} {s : Scanner} {a m : Nat} (h : Inv inp s a m) (hp : s.start = a ∧ s.stop = m) :
    (s.buf.drop s.start).take (s.stop - s.start) = (inp.drop a).take (m - a) := by
  have e : (s.buf.take m).drop a = (inp.take m).drop a := by rw [h.data]
  rw [List.drop_take, List.drop_take] at e
  rw [hp.1, hp.2]
  exact e

/-- The buffer has room without being shifted. -/
theorem Inv.ready {inp : Bytes} (hi : inp.length ≤ 2048) {s : Scanner} {a m : Nat} (h : Inv inp s a m) (hp : s.start = a ∧ s.stop = m) :
    ∃ t, s.shift.grow = some t ∧ Inv inp t a m ∧ t.buf.length = 4096 ∧ t.start = a ∧ t.stop = m ∧ t.err = s.err ∧ t.input = s.input ∧ t.last = s.last := by
  have hm := h.ml
  have ha := h.am
  have hsh : s.shift = s := by
    unfold Scanner.shift
    rw [if_neg]
    rintro ⟨h1, h2⟩
    rcases h.shape with ⟨_, _, h3⟩ | ⟨h3, _⟩
    · omega
    · omega
  rw [hsh]
  unfold Scanner.grow
  rcases h.shape with ⟨h1, h2, h3⟩ | ⟨h3, h4⟩
  · rw [if_pos (by rw [h1, hp.2, h3]; rfl), if_neg (by rw [h1]; decide)]
    refine ⟨_, rfl, ?_, ?_, ?_, ?_, rfl, rfl, rfl⟩
    · refine ⟨ha, hm, ?_, h.rest, .inr ⟨?_, ?_⟩, h.err, .inl ⟨?_, ?_⟩⟩
      · rw [h3]; rfl
      · rw [h1]; simp only [List.drop_nil, List.take_nil, List.nil_append, List.length_nil, if_true, List.length_replicate]; rfl
      · rw [h1, h2]; rfl
      · show 0 = a; omega
      · show s.stop - s.start = m; omega
    · rw [h1]; simp only [List.drop_nil, List.take_nil, List.nil_append, List.length_nil, if_true, List.length_replicate]; rfl
    · show 0 = a; omega
    · show s.stop - s.start = m; omega
  · rw [if_neg (by omega)]
    exact ⟨s, rfl, h, h3, hp.1, hp.2, rfl, rfl, rfl⟩

/-- A read. -/
theorem Inv.read {inp : Bytes} (hi : inp.length ≤ 2048) {s : Scanner} {a m : Nat} (h : Inv inp s a m) (hp : s.start = a ∧ s.stop = m)
    (hb : s.buf.length = 4096) (he : s.err = none) : ∃ m', m ≤ m' ∧ Inv inp s.read a m' ∧ s.read.last = s.last ∧ fuel s.read < fuel s := by
  have hold : s.old = [[]] := by
    rcases h.shape with ⟨h1, _⟩ | ⟨_, h2⟩
    · rw [h1] at hb; cases hb
    · exact h2
  have hm := h.ml
  have ha := h.am
  unfold Scanner.read
  cases hin : s.input with
  | nil =>
    refine ⟨m, Nat.le_refl _, ⟨ha, hm, h.data, ?_, .inr ⟨hb, hold⟩, .inr ⟨rfl, rfl⟩, .inl hp⟩, rfl, ?_⟩
    · have := h.rest; rw [hin] at this; exact this
    · simp [fuel, he, hin]
  | cons c cs =>
    have hrest := h.rest
    rw [hin, List.flatten_cons] at hrest
    have hlen : c.length ≤ inp.length - m := by
      have := congrArg List.length hrest
      rw [List.length_append, List.length_drop] at this
      omega
    have hd : c.take (s.buf.length - s.stop) = c := List.take_of_length_le (by rw [hb, hp.2]; omega)
    simp only [hd, if_true]
    refine ⟨m + c.length, by omega, ⟨by omega, by omega, ?_, ?_, .inr ⟨?_, hold⟩, .inl he, .inl ⟨hp.1, ?_⟩⟩, trivial, ?_⟩
    · have hl : (s.buf.take m ++ c).length = m + c.length := by
        rw [List.length_append, List.length_take]; omega
      simp only [hp.2]
      conv => lhs; rw [← hl, List.take_left, h.data]
      rw [List.take_add, ← hrest, List.take_left]
    · show cs.flatten = _
      rw [← List.drop_drop, ← hrest, List.drop_left]
    · simp only [List.length_append, List.length_take, List.length_drop, hp.2]; omega
    · show s.stop + c.length = _; omega
    · simp [fuel, he, hin]; omega

theorem scan_spec {inp : Bytes} (hi : inp.length ≤ 2048) : ∀ (n : Nat) (s : Scanner) (a m : Nat), Inv inp s a m → fuel s ≤ n →
    (a = inp.length → ∃ t, scanN n s = some (none, t) ∧ t.err = some t.last ∧ t.last = s.last ∧ Inv inp t a inp.length) ∧
    (a < inp.length → ∃ t a' m', scanN n s = some (some ⟨1, a, (firstLine (inp.drop a)).length⟩, t) ∧ t.last = s.last ∧ t.old = [[]] ∧ Inv inp t a' m' ∧
      m ≤ m' ∧ a + (firstLine (inp.drop a)).length ≤ m' ∧ inp.drop a' = otherLines (inp.drop a) ∧ fuel t ≤ n ∧ 0 < m') := by
  intro n
  induction n with
  | zero =>
    intro s a m _ hf
    unfold fuel at hf
    split at hf <;> omega
  | succ n ih =>
    intro s a m h hf
    have hm := h.ml
    have ha := h.am
    rw [scanN]
    rcases h.pos with hp | ⟨hp1, hp2, hp3, hp4⟩
    · have hsl := h.slice hp
      -- reading on
      have more : s.token = none → s.err = none →
          (a = inp.length → ∃ t, (match s.shift.grow with
              | none => some (none, { s.shift with err := some .tooLong })
              | some t => scanN n t.read) = some (none, t) ∧ t.err = some t.last ∧ t.last = s.last ∧ Inv inp t a inp.length) ∧
          (a < inp.length → ∃ t a' m', (match s.shift.grow with
              | none => some (none, { s.shift with err := some .tooLong })
              | some t => scanN n t.read) = some (some ⟨1, a, (firstLine (inp.drop a)).length⟩, t) ∧ t.last = s.last ∧ t.old = [[]] ∧ Inv inp t a' m' ∧
            m ≤ m' ∧ a + (firstLine (inp.drop a)).length ≤ m' ∧ inp.drop a' = otherLines (inp.drop a) ∧ fuel t ≤ n + 1 ∧ 0 < m') := by
        intro _ he
        obtain ⟨t, g1, g2, g3, g4, g5, g6, g7, g8⟩ := h.ready hi hp
        obtain ⟨m', k1, k2, k3, k4⟩ := g2.read hi ⟨g4, g5⟩ g3 (g6.trans he)
        have hft : fuel t = fuel s := by unfold fuel; rw [g6, g7]
        obtain ⟨i1, i2⟩ := ih t.read a m' k2 (by omega)
        rw [g1]
        constructor
        · intro hl
          obtain ⟨u, u1, u2, u3, u4⟩ := i1 hl
          exact ⟨u, u1, u2, u3.trans (k3.trans g8), u4⟩
        · intro hl
          obtain ⟨u, a', m'', u1, u2, u3, u4, u5, u6, u7, u8, u9⟩ := i2 hl
          exact ⟨u, a', m'', u1, u2.trans (k3.trans g8), u3, u4, by omega, u6, u7, by omega, u9⟩
      by_cases htok : s.token = none
      · rw [htok]
        by_cases he : s.err = none
        · simp only [he, Option.isSome_none, Bool.false_eq_true, if_false]
          exact more htok he
        · have her := h.err.resolve_left he
          have hsome : s.err.isSome = true := by rw [her.1]; rfl
          rw [if_pos hsome]
          have hml : m = inp.length := by
            have := congrArg List.length h.rest
            rw [her.2, List.length_drop] at this
            simp at this
            omega
          have hD : (inp.drop a).take (m - a) = inp.drop a := List.take_of_length_le (by rw [List.length_drop]; omega)
          have htok' := htok
          unfold Scanner.token at htok'
          rw [if_pos (.inr hsome), hsl, hD] at htok'
          unfold scanLines at htok'
          rcases findIdx_nl (inp.drop a) with ⟨f1, f2⟩ | ⟨i, f1, _⟩
          · rw [f1] at htok'
            simp only [hsome, true_and] at htok'
            have hnil : inp.drop a = [] := by
              apply Classical.byContradiction
              intro hne
              rw [if_pos hne] at htok'
              cases htok'
            have hal : inp.length ≤ a := List.drop_eq_nil_iff.mp hnil
            constructor
            · intro hl
              refine ⟨_, rfl, her.1, rfl, ⟨by omega, Nat.le_refl _, ?_, ?_, ?_, .inr her, .inr ⟨rfl, rfl, hsome, hl⟩⟩⟩
              · rw [← hml]; exact h.data
              · rw [← hml]; exact h.rest
              · rcases h.shape with ⟨q1, q2, q3⟩ | q
                · exact .inl ⟨q1, q2, by omega⟩
                · exact .inr q
            · intro; omega
          · rw [f1] at htok'
            cases htok'
      · have hpos : s.start < s.stop ∨ s.err.isSome = true := by
          apply Classical.byContradiction
          intro hc
          exact htok (by unfold Scanner.token; rw [if_neg hc])
        have hlt : a < m := by
          apply Classical.byContradiction
          intro hc
          apply htok
          unfold Scanner.token
          have hnil : (inp.drop a).take (m - a) = [] := by rw [show m - a = 0 by omega]; rfl
          rw [if_pos hpos, hsl, hnil]
          simp [scanLines]
        have hshape : s.buf.length = 4096 ∧ s.old = [[]] := by
          rcases h.shape with ⟨_, _, q3⟩ | q
          · omega
          · exact q
        have htk : s.token = scanLines ((inp.drop a).take (m - a)) s.err.isSome := by
          unfold Scanner.token
          rw [if_pos hpos, hsl]
        refine ⟨fun _ => by omega, fun _ => ?_⟩
        have hDl : ((inp.drop a).take (m - a)).length = m - a := by rw [List.length_take, List.length_drop]; omega
        have hcat : inp.drop a = (inp.drop a).take (m - a) ++ inp.drop m := by
          have : inp.drop m = (inp.drop a).drop (m - a) := by rw [List.drop_drop]; congr 1; omega
          rw [this, List.take_append_drop]
        rcases findIdx_nl ((inp.drop a).take (m - a)) with ⟨f1, f2⟩ | ⟨i, f1, f2, f3, f4⟩
        · -- the last line
          have htk' := htk
          unfold scanLines at htk'
          rw [f1] at htk'
          simp only at htk'
          by_cases he : s.err.isSome = true
          · have her : s.err = some s.last ∧ s.input = [] := h.err.resolve_left (by intro hc; rw [hc] at he; cases he)
            have hml : m = inp.length := by
              have := congrArg List.length h.rest
              rw [her.2, List.length_drop] at this
              simp at this
              omega
            have hD : (inp.drop a).take (m - a) = inp.drop a := List.take_of_length_le (by rw [List.length_drop]; omega)
            rw [hD] at htk' f2
            rw [if_pos ⟨he, by intro hc; rw [hD, hc] at hDl; simp at hDl; omega⟩] at htk'
            rw [htk']
            have hfl : firstLine (inp.drop a) = dropCR (inp.drop a) := by rw [firstLine_eq]; rw [takeWhile_all f2]
            have hol : otherLines (inp.drop a) = [] := by unfold otherLines; rw [dropWhile_all f2]; rfl
            have hle := dropCR_length (inp.drop a)
            rw [List.length_drop] at hle
            refine ⟨{ s with start := s.start + (inp.drop a).length }, inp.length, m, ?_, rfl, hshape.2, ⟨by omega, hm, h.data, h.rest, .inr hshape, h.err, .inl ⟨?_, hp.2⟩⟩, Nat.le_refl _, ?_, ?_, hf, by omega⟩
            · rw [hfl]; simp only [hshape.2, hp.1]; rfl
            · show s.start + (inp.drop a).length = _
              rw [List.length_drop]; omega
            · rw [hfl]; omega
            · rw [hol, List.drop_length]
          · rw [if_neg (fun hc => he hc.1)] at htk'
            exact absurd htk' htok
        · have htk' := htk
          unfold scanLines at htk'
          rw [f1] at htk'
          simp only at htk'
          rw [htk']
          have hwhole : (inp.drop a).findIdx? (· = 10) = some i := by
            rw [hcat, List.findIdx?_append, f1]; rfl
          rcases findIdx_nl (inp.drop a) with ⟨e1, _⟩ | ⟨i', e1, e2, e3, e4⟩
          · rw [hwhole] at e1; cases e1
          · rw [hwhole] at e1
            injection e1 with e1
            subst e1
            have htk2 : ((inp.drop a).take (m - a)).take i = (inp.drop a).take i := by rw [List.take_take, Nat.min_eq_left (by omega)]
            have hfl : firstLine (inp.drop a) = dropCR ((inp.drop a).take i) := by rw [firstLine_eq]; rw [e3]
            have hle := dropCR_length ((inp.drop a).take i)
            rw [List.length_take] at hle
            refine ⟨{ s with start := s.start + (i + 1) }, a + (i + 1), m, ?_, rfl, hshape.2,
              ⟨by omega, hm, h.data, h.rest, .inr hshape, h.err, .inl ⟨?_, hp.2⟩⟩, Nat.le_refl _, ?_, ?_, hf, by omega⟩
            · rw [hfl, htk2]; simp only [hshape.2, hp.1]; rfl
            · show s.start + (i + 1) = _; omega
            · rw [hfl]; omega
            · rw [← List.drop_drop, e4]; rfl
    · have htok : s.token = none := by
        unfold Scanner.token
        rw [if_pos (.inr hp3), hp1, hp2]
        simp [scanLines]
      rw [htok]
      simp only [hp3, if_true]
      refine ⟨fun _ => ?_, fun hl => by omega⟩
      have her : s.err = some s.last ∧ s.input = [] := h.err.resolve_left (by intro hc; rw [hc] at hp3; cases hp3)
      have hml : m = inp.length := by omega
      refine ⟨_, rfl, her.1, rfl, ⟨by omega, Nat.le_refl _, ?_, ?_, ?_, .inr her, .inr ⟨rfl, rfl, hp3, hp4⟩⟩⟩
      · rw [← hml]; exact h.data
      · rw [← hml]; exact h.rest
      · rcases h.shape with ⟨q1, q2, q3⟩ | q
        · exact .inl ⟨q1, q2, by omega⟩
        · exact .inr q

/-- One line, as a slice that stays valid. -/
theorem next_spec {inp : Bytes} (hi : inp.length ≤ 2048) {n : Nat} {s : Scanner} {a m : Nat} (h : Inv inp s a m) (hl : s.last = .eof) (hf : fuel s ≤ n) :
    ∃ v t a' m', next n s = some (.ok v, t) ∧ Inv inp t a' m' ∧ t.last = .eof ∧ inp.drop a' = otherLines (inp.drop a) ∧ fuel t ≤ n ∧ m ≤ m' ∧
      ∀ u b k, Inv inp u b k → m' ≤ k → u.view v = firstLine (inp.drop a) := by
  have hm := h.ml
  have ha := h.am
  obtain ⟨h1, h2⟩ := scan_spec hi n s a m h hf
  by_cases he : a = inp.length
  · obtain ⟨t, g1, g2, g3, g4⟩ := h1 he
    have hn : inp.drop a = [] := by rw [he, List.drop_length]
    refine ⟨⟨0, 0, 0⟩, t, a, inp.length, ?_, g4, g3.trans hl, ?_, ?_, hm, ?_⟩
    · unfold next
      rw [g1]
      simp only [g2, g3, hl, if_true]
    · rw [hn]; rfl
    · unfold fuel at hf ⊢
      rw [g2]
      split at hf
      · exact hf
      · simp; omega
    · intro u b k _ _
      rw [hn]
      simp [Scanner.view, firstLine]
  · obtain ⟨t, a', m', g1, g2, g3, g4, g5, g6, g7, g8, g9⟩ := h2 (by omega)
    refine ⟨⟨1, a, (firstLine (inp.drop a)).length⟩, t, a', m', ?_, g4, g2.trans hl, g7, g8, g5, ?_⟩
    · unfold next
      rw [g1]
    · intro u b k hu hk
      have hold : u.old = [[]] := by
        rcases hu.shape with ⟨_, _, q⟩ | q
        · omega
        · exact q.2
      rw [hu.view hold (by omega)]
      have hp : firstLine (inp.drop a) = ((inp.drop a).takeWhile (· ≠ 10)).take (firstLine (inp.drop a)).length := (dropCR_prefix _).symm
      have hle : (firstLine (inp.drop a)).length ≤ ((inp.drop a).takeWhile (· ≠ 10)).length := dropCR_length _
      conv => rhs; rw [hp]
      rw [List.prefix_iff_eq_take.mp (List.takeWhile_prefix (fun x : UInt8 => decide (x ≠ 10)) (l := inp.drop a)), List.take_take, Nat.min_eq_left hle]

theorem inv_new (input : List Bytes) (last : RErr) : Inv input.flatten (newScanner input last) 0 0 :=
  ⟨Nat.le_refl _, Nat.zero_le _, rfl, rfl, .inl ⟨rfl, rfl, rfl⟩, .inl rfl, .inl ⟨rfl, rfl⟩⟩

/-! ### C113: the passphrase is the one that was given twice -/

/-- C113 (partial: at most 2048 bytes of input): however the input arrives, `db create` goes on exactly
if the first two lines agree, and uses what they contain. -/
theorem C113_create_partial (input : List Bytes) (h : input.flatten.length ≤ 2048) (n : Nat) (hn : input.flatten.length + input.length + 2 ≤ n) :
    askCreate n input .eof = some (
      if firstLine input.flatten = firstLine (otherLines input.flatten) then .got (firstLine input.flatten) else .differ) := by
  obtain ⟨v1, t1, a1, m1, e1, i1, l1, d1, f1, _, w1⟩ := next_spec h (inv_new input .eof) rfl (n := n) hn
  obtain ⟨v2, t2, a2, m2, e2, i2, l2, d2, f2, k2, w2⟩ := next_spec h i1 l1 f1
  unfold askCreate
  rw [e1]
  simp only [Option.bind_some]
  rw [e2]
  simp only [Option.bind_some]
  rw [w1 t2 a2 m2 i2 k2, w2 t2 a2 m2 i2 (Nat.le_refl _), d1, List.drop_zero]
  split <;> simp_all

/-- C113 (partial: at most 2048 bytes of input): `db rekey` goes on exactly if the second and the
third line agree, and uses the first line as the old and the second as the new passphrase. -/
theorem C113_rekey_partial (input : List Bytes) (h : input.flatten.length ≤ 2048) (n : Nat) (hn : input.flatten.length + input.length + 2 ≤ n) :
    askRekey n input .eof = some (
      if firstLine (otherLines input.flatten) = firstLine (otherLines (otherLines input.flatten)) then
        .got (firstLine input.flatten, firstLine (otherLines input.flatten)) else .differ) := by
  obtain ⟨v0, t0, a0, m0, e0, i0, l0, d0, f0, _, w0⟩ := next_spec h (inv_new input .eof) rfl (n := n) hn
  obtain ⟨v1, t1, a1, m1, e1, i1, l1, d1, f1, k1, w1⟩ := next_spec h i0 l0 f0
  obtain ⟨v2, t2, a2, m2, e2, i2, l2, d2, f2, k2, w2⟩ := next_spec h i1 l1 f1
  unfold askRekey
  rw [e0]
  simp only [Option.bind_some]
  rw [e1]
  simp only [Option.bind_some]
  rw [e2]
  simp only [Option.bind_some]
  rw [w0 t2 a2 m2 i2 (by omega), w1 t2 a2 m2 i2 k2, w2 t2 a2 m2 i2 (Nat.le_refl _), d1, d0, List.drop_zero]
  split <;> simp_all

/-! ### one line of any length -/

/-- The state of a scanner during its first scan. -/
structure First (inp : Bytes) (s : Scanner) (m : Nat) : Prop where
  start : s.start = 0
  stop : s.stop = m
  ml : m ≤ inp.length
  mb : m ≤ s.buf.length
  bl : s.buf.length ≤ 65536
  data : s.buf.take m = inp.take m
  rest : s.input.flatten = inp.drop m
  err : s.err = none ∨ (s.err = some s.last ∧ s.input = [] ∧ m < 65536)

/-- The buffer gets room, if it can. -/
theorem First.ready {inp : Bytes} {s : Scanner} {m : Nat} (h : First inp s m) :
    s.shift = s ∧ (m = 65536 → s.grow = none) ∧
    (m < 65536 → ∃ t, s.grow = some t ∧ First inp t m ∧ m < t.buf.length ∧ t.err = s.err ∧ t.input = s.input ∧ t.last = s.last) := by
  have h1 := h.ml
  have h2 := h.mb
  have h3 := h.bl
  refine ⟨?_, ?_, ?_⟩
  · unfold Scanner.shift
    rw [if_neg]
    have := h.start
    omega
  · intro hm
    unfold Scanner.grow
    rw [if_pos (by rw [h.stop]; omega), if_pos (by unfold maxTokenSize; omega)]
  · intro hm
    unfold Scanner.grow
    by_cases hf : s.stop = s.buf.length
    · have hb : m = s.buf.length := h.stop.symm.trans hf
      rw [if_pos hf, if_neg (by unfold maxTokenSize; omega)]
      have hd : (s.buf.drop s.start).take (s.stop - s.start) = inp.take m := by
        rw [h.start, h.stop, Nat.sub_zero, List.drop_zero, h.data]
      have hdl : (inp.take m).length = m := by rw [List.length_take]; omega
      have hsz : m < min (if s.buf.length = 0 then startBufSize else 2 * s.buf.length) maxTokenSize ∧
          min (if s.buf.length = 0 then startBufSize else 2 * s.buf.length) maxTokenSize ≤ 65536 := by
        unfold startBufSize maxTokenSize
        split <;> omega
      generalize hs : min (if s.buf.length = 0 then startBufSize else 2 * s.buf.length) maxTokenSize = size at hsz
      simp only [hd]
      have hl : (inp.take m ++ List.replicate (size - (inp.take m).length) 0).length = size := by
        rw [List.length_append, List.length_replicate, hdl]; omega
      refine ⟨_, rfl, ⟨rfl, ?_, h1, ?_, ?_, ?_, h.rest, h.err⟩, ?_, rfl, rfl, rfl⟩
      · show s.stop - s.start = m
        rw [h.start, h.stop]; rfl
      · show m ≤ (inp.take m ++ List.replicate (size - (inp.take m).length) 0).length
        rw [hl]; omega
      · show (inp.take m ++ List.replicate (size - (inp.take m).length) 0).length ≤ 65536
        rw [hl]; omega
      · show (inp.take m ++ List.replicate (size - (inp.take m).length) 0).take m = inp.take m
        rw [List.take_append_of_le_length (by omega), List.take_take, Nat.min_self]
      · show m < (inp.take m ++ List.replicate (size - (inp.take m).length) 0).length
        rw [hl]; omega
    · rw [if_neg hf]
      have := h.stop
      exact ⟨s, rfl, h, by omega, rfl, rfl, rfl⟩

/-- A read. -/
theorem First.read {inp : Bytes} {s : Scanner} {m : Nat} (h : First inp s m) (hm : m < s.buf.length) (he : s.err = none) :
    ∃ m', First inp s.read m' ∧ s.read.last = s.last ∧ fuel s.read < fuel s := by
  have h1 := h.ml
  have h3 := h.bl
  unfold Scanner.read
  cases hin : s.input with
  | nil =>
    refine ⟨m, ⟨h.start, h.stop, h1, h.mb, h3, h.data, ?_, .inr ⟨rfl, rfl, by omega⟩⟩, rfl, ?_⟩
    · have := h.rest; rw [hin] at this; exact this
    · simp [fuel, he, hin]
  | cons c cs =>
    have hrest := h.rest
    rw [hin, List.flatten_cons] at hrest
    have hlen : c.length + cs.flatten.length = inp.length - m := by
      have := congrArg List.length hrest
      rw [List.length_append, List.length_drop] at this
      omega
    have hdl : (c.take (s.buf.length - s.stop)).length = min (s.buf.length - m) c.length := by rw [List.length_take, h.stop]
    have hdp : c.take (s.buf.length - s.stop) = c.take (c.take (s.buf.length - s.stop)).length := by
      rw [List.length_take, List.take_eq_take_min]
    generalize hd : c.take (s.buf.length - s.stop) = d at hdl hdp
    have hcat : c = d ++ c.drop d.length := by
      conv => lhs; rw [← List.take_append_drop d.length c]
      rw [← hdp]
    simp only [hd]
    have hl : (s.buf.take m ++ d).length = m + d.length := by
      rw [List.length_append, List.length_take]; omega
    refine ⟨m + d.length, ⟨h.start, ?_, by omega, ?_, ?_, ?_, ?_, .inl he⟩, trivial, ?_⟩
    · show s.stop + d.length = _; rw [h.stop]
    · simp only [List.length_append, List.length_take, List.length_drop, h.stop]; omega
    · simp only [List.length_append, List.length_take, List.length_drop, h.stop]; omega
    · simp only [h.stop]
      conv => lhs; rw [← hl, List.take_left, h.data]
      rw [List.take_add, ← hrest]
      congr 1
      conv => rhs; rw [hcat, List.append_assoc, List.take_left]
    · show (if d.length = c.length then cs else c.drop d.length :: cs).flatten = _
      rw [← List.drop_drop, ← hrest]
      conv => rhs; rw [hcat, List.append_assoc, List.drop_left]
      split
      · rename_i hq
        rw [hq, List.drop_length, List.nil_append]
      · rw [List.flatten_cons]
    · simp only [fuel, he, hin, Option.isSome_none, Bool.false_eq_true, if_false]
      split
      · simp; omega
      · simp only [List.flatten_cons, List.length_append, List.length_cons, List.length_drop]; omega

/-- The first scan. -/
theorem first_scan {inp : Bytes} : ∀ (n : Nat) (s : Scanner) (m : Nat), First inp s m → s.last = .eof → fuel s ≤ n →
    ∃ r t, scanN n s = some (r, t) ∧
      (inp = [] → r = none ∧ t.err = some .eof) ∧
      (inp ≠ [] → (inp.takeWhile (· ≠ 10)).length ≤ 65535 → ∃ v, r = some v ∧ t.view v = firstLine inp) ∧
      (65536 ≤ (inp.takeWhile (· ≠ 10)).length → r = none ∧ t.err = some .tooLong) := by
  intro n
  induction n with
  | zero =>
    intro s m _ _ hf
    unfold fuel at hf
    split at hf <;> omega
  | succ n ih =>
    intro s m h hl hf
    have h1 := h.ml
    have h3 := h.bl
    have h4 := h.mb
    rw [scanN]
    have hsl : (s.buf.drop s.start).take (s.stop - s.start) = inp.take m := by
      rw [h.start, h.stop, Nat.sub_zero, List.drop_zero, h.data]
    have hLL : (inp.takeWhile (· ≠ 10)).length ≤ inp.length := (List.takeWhile_prefix _).length_le
    have hview : ∀ (st len : Nat), len ≤ m → ({ s with start := st } : Scanner).view ⟨s.old.length, s.start, len⟩ = inp.take len := by
      intro st len hlen
      unfold Scanner.view
      simp only [List.getD_eq_getElem?_getD, List.getElem?_append_right (Nat.le_refl _), Nat.sub_self, List.getElem?_cons_zero, Option.getD_some, h.start,
        List.drop_zero]
      have e : (s.buf.take m).take len = (inp.take m).take len := by rw [h.data]
      rwa [List.take_take, List.take_take, Nat.min_eq_left hlen] at e
    cases htok : s.token with
    | none =>
      simp only []
      by_cases he : s.err = none
      · simp only [he, Option.isSome_none, Bool.false_eq_true, if_false]
        obtain ⟨q1, q2, q3⟩ := h.ready
        rw [q1]
        have hno : m ≤ (inp.takeWhile (· ≠ 10)).length := by
          rcases findIdx_nl (inp.take m) with ⟨f1, f2⟩ | ⟨i, f1, f2, _⟩
          · have : (inp.take m).length ≤ (inp.takeWhile (· ≠ 10)).length := by
              conv => rhs; rw [← List.take_append_drop m inp]
              rw [List.takeWhile_append_of_pos (by simpa using f2)]
              rw [List.length_append]; omega
            rw [List.length_take] at this
            omega
          · exfalso
            unfold Scanner.token at htok
            have hm0 : 0 < m := by
              apply Classical.byContradiction
              intro hc
              have : m = 0 := by omega
              rw [this] at f2
              simp at f2
            rw [if_pos (.inl (by rw [h.start, h.stop]; exact hm0)), hsl] at htok
            unfold scanLines at htok
            rw [f1] at htok
            cases htok
        by_cases hm : m = 65536
        · rw [q2 hm]
          refine ⟨_, _, rfl, ?_, ?_, fun _ => ⟨rfl, rfl⟩⟩
          · intro hi
            rw [hi] at h1
            simp at h1
            omega
          · intro _ hL
            omega
        · obtain ⟨t, g1, g2, g3, g4, g5, g6⟩ := q3 (by omega)
          rw [g1]
          obtain ⟨m', k1, k2, k3⟩ := g2.read g3 (g4.trans he)
          have hft : fuel t = fuel s := by unfold fuel; rw [g4, g5]
          exact ih t.read m' k1 (k2.trans (g6.trans hl)) (by omega)
      · have her := h.err.resolve_left he
        have hsome : s.err.isSome = true := by rw [her.1]; rfl
        rw [if_pos hsome]
        have hml : m = inp.length := by
          have := congrArg List.length h.rest
          rw [her.2.1, List.length_drop] at this
          simp at this
          omega
        unfold Scanner.token at htok
        rw [if_pos (.inr hsome), hsl, hml, List.take_length] at htok
        unfold scanLines at htok
        have hnil : inp = [] := by
          apply Classical.byContradiction
          intro hne
          rcases findIdx_nl inp with ⟨f1, f2⟩ | ⟨i, f1, _⟩
          · rw [f1] at htok
            simp only at htok
            rw [if_pos ⟨hsome, hne⟩] at htok
            cases htok
          · rw [f1] at htok
            cases htok
        refine ⟨_, _, rfl, fun _ => ⟨rfl, ?_⟩, fun hne => absurd hnil hne, ?_⟩
        · show s.err = _
          rw [her.1, hl]
        · intro hL
          rw [hnil] at hL
          simp at hL
    | some p =>
      obtain ⟨adv, len⟩ := p
      have hpos : s.start < s.stop ∨ s.err.isSome = true := by
        apply Classical.byContradiction
        intro hc
        unfold Scanner.token at htok
        rw [if_neg hc] at htok
        cases htok
      unfold Scanner.token at htok
      rw [if_pos hpos, hsl] at htok
      unfold scanLines at htok
      simp only []
      rcases findIdx_nl (inp.take m) with ⟨f1, f2⟩ | ⟨i, f1, f2, f3, f4⟩
      · rw [f1] at htok
        simp only at htok
        split at htok
        · rename_i hc
          have her := h.err.resolve_left (by intro hz; rw [hz] at hc; cases hc.1)
          have hml : m = inp.length := by
            have := congrArg List.length h.rest
            rw [her.2.1, List.length_drop] at this
            simp at this
            omega
          rw [hml, List.take_length] at htok f2 hc
          injection htok with htok
          injection htok with e1 e2
          have hfl : firstLine inp = dropCR inp := by rw [firstLine_eq]; rw [takeWhile_all f2]
          have hle := dropCR_length inp
          refine ⟨_, _, rfl, fun hi => absurd hi hc.2, fun _ _ => ⟨_, rfl, ?_⟩, ?_⟩
          · rw [hview _ _ (by omega), ← e2, hfl, dropCR_prefix]
          · intro hL
            have := her.2.2
            omega
        · cases htok
      · rw [f1] at htok
        simp only at htok
        injection htok with htok
        injection htok with e1 e2
        have hwhole : inp.findIdx? (· = 10) = some i := by
          rw [← List.take_append_drop m inp, List.findIdx?_append, f1]; rfl
        rcases findIdx_nl inp with ⟨e1, _⟩ | ⟨i', e3, e4, e5, e6⟩
        · rw [hwhole] at e1; cases e1
        · rw [hwhole] at e3
          injection e3 with e3
          subst e3
          rw [List.length_take] at f2
          have htk : (inp.take m).take i = inp.take i := by rw [List.take_take, Nat.min_eq_left (by omega)]
          rw [htk] at e2
          have hfl : firstLine inp = dropCR (inp.take i) := by rw [firstLine_eq]; rw [e5]
          have hLi : (inp.takeWhile (· ≠ 10)).length = i := by rw [← e5, List.length_take]; omega
          have hle := dropCR_length (inp.take i)
          rw [List.length_take] at hle
          refine ⟨_, _, rfl, ?_, fun _ _ => ⟨_, rfl, ?_⟩, ?_⟩
          · intro hi
            rw [hi] at e4
            simp at e4
          · rw [hview _ _ (by omega), ← e2, hfl]
            conv => rhs; rw [← dropCR_prefix, List.take_take, Nat.min_eq_left (by omega)]
          · intro hL
            omega

theorem first_new (input : List Bytes) (last : RErr) : First input.flatten (newScanner input last) 0 :=
  ⟨rfl, rfl, Nat.zero_le _, Nat.zero_le _, Nat.zero_le _, rfl, rfl, .inl rfl⟩

/-- C113: however its input arrives, `Readline` returns the first line, without its end, of any length
up to 65535 bytes, and an error for every longer one. -/
theorem C113_readline (input : List Bytes) (n : Nat) (hn : input.flatten.length + input.length + 2 ≤ n) :
    readline n input .eof = some (
      if (input.flatten.takeWhile (· ≠ 10)).length ≤ 65535 then .ok (firstLine input.flatten) else .error .tooLong) := by
  obtain ⟨r, t, h0, h1, h2, h3⟩ := first_scan n _ 0 (first_new input .eof) rfl hn
  unfold readline next
  rw [h0]
  by_cases hL : (input.flatten.takeWhile (· ≠ 10)).length ≤ 65535
  · rw [if_pos hL]
    by_cases hne : input.flatten = []
    · obtain ⟨rfl, e⟩ := h1 hne
      simp only [e, if_true, Option.map_some]
      rw [hne]
      simp [Scanner.view, firstLine]
    · obtain ⟨v, rfl, e⟩ := h2 hne hL
      simp only [Option.map_some, e]
  · rw [if_neg hL]
    obtain ⟨rfl, e⟩ := h3 (by omega)
    simp [e]

/-- A text of two lines, in two pieces. -/
example : readline 100 [[104, 105, 13], [10, 120, 10]] .eof = some (.ok [104, 105]) := by
  rw [C113_readline _ _ (by decide)]
  rfl

/-- A line that is too long. -/
example : readline 65700 [List.replicate 65536 7] .eof = some (.error .tooLong) := by
  rw [C113_readline _ _ (by rw [List.flatten_cons, List.flatten_nil, List.append_nil, List.length_replicate]; decide)]
  rw [if_neg]
  rw [List.flatten_cons, List.flatten_nil, List.append_nil, takeWhile_all, List.length_replicate]
  · omega
  · intro c hc
    rw [(List.mem_replicate.mp hc).2]
    decide

/-! ### longer passphrases -/

/-- A line that arrives when the buffer is used up overwrites the one before. -/
theorem long_line {b p : Bytes} {cs : List Bytes} {k : Nat} (hb : b.length = 4096) (h0 : 2048 ≤ k) (hk : k < 4096) (hpl : p.length < 4096)
    (hp : ∀ c ∈ p, c ≠ 10) (hr : p.getLast? ≠ some 13) (n : Nat) :
    next (n + 2) ⟨[[]], b, k + 1, k + 1, none, (p ++ [10]) :: cs, .eof⟩ = some (.ok ⟨1, 0, p.length⟩,
      ⟨[[]], p ++ [10] ++ b.drop (p.length + 1), p.length + 1, p.length + 1, none, cs, .eof⟩) := by
  have hfi : (p ++ [10]).findIdx? (· = 10) = some p.length := by
    rw [List.findIdx?_append]
    rcases findIdx_nl p with ⟨e, _⟩ | ⟨i, e, hi, e1, _⟩
    · rw [e]; simp
    · rw [takeWhile_all hp] at e1
      have := congrArg List.length e1
      rw [List.length_take] at this
      omega
  have htok : Scanner.token ⟨[[]], p ++ [10] ++ b.drop (p.length + 1), 0, p.length + 1, none, cs, .eof⟩ = some (p.length + 1, p.length) := by
    unfold Scanner.token
    rw [if_pos (.inl (by simp))]
    simp only [List.drop_zero, Nat.sub_zero]
    rw [List.take_append_of_le_length (by simp), List.take_of_length_le (by simp)]
    unfold scanLines
    rw [hfi]
    simp only [List.take_left]
    unfold dropCR
    rw [if_neg hr]
  have hscan : scanN (n + 2) ⟨[[]], b, k + 1, k + 1, none, (p ++ [10]) :: cs, .eof⟩ = some (some ⟨1, 0, p.length⟩,
      ⟨[[]], p ++ [10] ++ b.drop (p.length + 1), p.length + 1, p.length + 1, none, cs, .eof⟩) := by
    rw [scanN]
    have ht : Scanner.token ⟨[[]], b, k + 1, k + 1, none, (p ++ [10]) :: cs, .eof⟩ = none := by
      unfold Scanner.token
      rw [if_neg]
      simp
    have hs : Scanner.shift ⟨[[]], b, k + 1, k + 1, none, (p ++ [10]) :: cs, .eof⟩ = ⟨[[]], b, 0, 0, none, (p ++ [10]) :: cs, .eof⟩ := by
      unfold Scanner.shift
      rw [if_pos ⟨by simp, .inr (by simp only [hb]; omega)⟩]
      simp
    have hg : Scanner.grow ⟨[[]], b, 0, 0, none, (p ++ [10]) :: cs, .eof⟩ = some ⟨[[]], b, 0, 0, none, (p ++ [10]) :: cs, .eof⟩ := by
      unfold Scanner.grow
      rw [if_neg (by simp only [hb]; omega)]
    have hd : Scanner.read ⟨[[]], b, 0, 0, none, (p ++ [10]) :: cs, .eof⟩ = ⟨[[]], p ++ [10] ++ b.drop (p.length + 1), 0, p.length + 1, none, cs, .eof⟩ := by
      unfold Scanner.read
      simp only [hb, Nat.sub_zero]
      have e : (p ++ [10]).take 4096 = p ++ [10] := List.take_of_length_le (by rw [List.length_append]; simp; omega)
      simp only [e, List.take_zero, List.nil_append, Nat.zero_add, List.length_append, List.length_cons, List.length_nil, if_true]
    rw [ht]
    simp only [Option.isSome_none, Bool.false_eq_true, if_false]
    rw [hs, hg]
    simp only [hd]
    rw [scanN, htok]
    simp
  unfold next
  rw [hscan]

/-- The first line. -/
theorem long_first {p : Bytes} {cs : List Bytes} (hpl : p.length < 4096)
    (hp : ∀ c ∈ p, c ≠ 10) (hr : p.getLast? ≠ some 13) (n : Nat) :
    ∃ b, b.length = 4096 ∧ next (n + 2) (newScanner ((p ++ [10]) :: cs) .eof) = some (.ok ⟨1, 0, p.length⟩,
      ⟨[[]], b, p.length + 1, p.length + 1, none, cs, .eof⟩) := by
  have hs : ∀ x : Scanner, scanN (n + 2) (newScanner ((p ++ [10]) :: cs) .eof) = scanN (n + 2) ⟨[[]], List.replicate 4096 0, 4096, 4096, none, (p ++ [10]) :: cs, .eof⟩ := by
    intro _
    rw [scanN, scanN]
    have e1 : Scanner.token (newScanner ((p ++ [10]) :: cs) .eof) = none := rfl
    have e2 : Scanner.token ⟨[[]], List.replicate 4096 0, 4096, 4096, none, (p ++ [10]) :: cs, .eof⟩ = none := by
      unfold Scanner.token; rw [if_neg (by simp)]
    have e3 : (newScanner ((p ++ [10]) :: cs) .eof).shift.grow = some ⟨[[]], List.replicate 4096 0, 0, 0, none, (p ++ [10]) :: cs, .eof⟩ := by
      simp only [newScanner, Scanner.shift, Scanner.grow, startBufSize, maxTokenSize, List.length_nil, if_true]
      rfl
    have e4 : Scanner.shift ⟨[[]], List.replicate 4096 0, 4096, 4096, none, (p ++ [10]) :: cs, .eof⟩ = ⟨[[]], List.replicate 4096 0, 0, 0, none, (p ++ [10]) :: cs, .eof⟩ := by
      unfold Scanner.shift
      rw [if_pos ⟨show 0 < 4096 by decide, .inr (by rw [List.length_replicate]; exact (by decide : 4096 / 2 < 4096))⟩]
      simp only [Nat.sub_self, List.take_zero, List.drop_zero, List.nil_append]
    have e5 : Scanner.grow ⟨[[]], List.replicate 4096 0, 0, 0, none, (p ++ [10]) :: cs, .eof⟩ = some ⟨[[]], List.replicate 4096 0, 0, 0, none, (p ++ [10]) :: cs, .eof⟩ := by
      unfold Scanner.grow
      rw [if_neg (by simp only [List.length_replicate]; omega)]
    rw [e1, e2, e3, e4, e5]
    rfl
  have hl := long_line (b := List.replicate 4096 0) (k := 4095) (cs := cs) List.length_replicate (by omega) (by omega) hpl hp hr n
  refine ⟨p ++ [10] ++ (List.replicate 4096 0).drop (p.length + 1), ?_, ?_⟩
  · simp only [List.length_append, List.length_drop, List.length_replicate, List.length_cons, List.length_nil]; omega
  · rw [← hl]
    unfold next
    rw [hs (newScanner [] .eof)]

theorem long_view {p b : Bytes} {cs : List Bytes} {x y : Nat} :
    Scanner.view ⟨[[]], p ++ [10] ++ b, x, y, none, cs, .eof⟩ ⟨1, 0, p.length⟩ = p := by
  unfold Scanner.view
  simp

/-- C113 is violated for long passphrases: of two different lines of the same length, 2048 bytes or
more, that arrive one after the other, `db create` takes the second one as the passphrase, as if it
had been given twice. -/
theorem C113_create_violated (p q : Bytes) (hl : p.length = q.length) (h0 : 2048 ≤ q.length) (h1 : q.length < 4096)
    (hp : ∀ c ∈ p, c ≠ 10) (hq : ∀ c ∈ q, c ≠ 10) (hpr : p.getLast? ≠ some 13) (hqr : q.getLast? ≠ some 13) (n : Nat) :
    askCreate (n + 2) [p ++ [10], q ++ [10]] .eof = some (.got q) := by
  obtain ⟨b, hb, e1⟩ := long_first (cs := [q ++ [10]]) (by omega) hp hpr n
  have e2 := long_line (cs := []) (k := p.length) hb (by omega) (by omega) h1 hq hqr n
  unfold askCreate
  rw [e1]
  simp only [Option.bind_some]
  rw [e2]
  simp only [Option.bind_some, hl, long_view]
  simp

/-- Two different passphrases. -/
example : ∃ p q : Bytes, p ≠ q ∧ askCreate 2 [p ++ [10], q ++ [10]] .eof = some (.got q) := by
  have L : ∀ c : UInt8, (List.replicate 3000 c).length = 3000 := fun c => List.length_replicate
  refine ⟨List.replicate 3000 97, List.replicate 3000 98, ?_, C113_create_violated _ _ (by rw [L, L]) (by rw [L]; decide) (by rw [L]; decide) ?_ ?_ ?_ ?_ 0⟩
  · intro h
    have := congrArg (·.head?) h
    simp only [List.head?_replicate] at this
    revert this
    decide
  · intro c hc; rw [(List.mem_replicate.mp hc).2]; decide
  · intro c hc; rw [(List.mem_replicate.mp hc).2]; decide
  · rw [List.getLast?_replicate]; decide
  · rw [List.getLast?_replicate]; decide

/-- C113 is violated for long passphrases: of three lines of the same length, 2048 bytes or more, that
arrive one after the other, `db rekey` takes the third one as the old and as the new passphrase. So
the right old passphrase is refused, and new passphrases that differ are not. -/
theorem C113_rekey_violated (o p q : Bytes) (hl : p.length = q.length) (hlo : o.length = q.length) (h0 : 2048 ≤ q.length) (h1 : q.length < 4096)
    (ho : ∀ c ∈ o, c ≠ 10) (hp : ∀ c ∈ p, c ≠ 10) (hq : ∀ c ∈ q, c ≠ 10)
    (hor : o.getLast? ≠ some 13) (hpr : p.getLast? ≠ some 13) (hqr : q.getLast? ≠ some 13) (n : Nat) :
    askRekey (n + 2) [o ++ [10], p ++ [10], q ++ [10]] .eof = some (.got (q, q)) := by
  obtain ⟨b, hb, e1⟩ := long_first (cs := [p ++ [10], q ++ [10]]) (by omega) ho hor n
  have e2 := long_line (cs := [q ++ [10]]) (k := o.length) hb (by omega) (by omega) (by omega) hp hpr n
  have hb2 : (p ++ [10] ++ b.drop (p.length + 1)).length = 4096 := by
    simp only [List.length_append, List.length_drop, List.length_cons, List.length_nil]; omega
  have e3 := long_line (cs := []) (k := p.length) hb2 (by omega) (by omega) h1 hq hqr n
  unfold askRekey
  rw [e1]
  simp only [Option.bind_some]
  rw [e2]
  simp only [Option.bind_some]
  rw [e3]
  simp only [Option.bind_some, hl, hlo, long_view]
  simp

example : ∃ o p q : Bytes, o ≠ q ∧ p ≠ q ∧ askRekey 2 [o ++ [10], p ++ [10], q ++ [10]] .eof = some (.got (q, q)) := by
  have L : ∀ c : UInt8, (List.replicate 3000 c).length = 3000 := fun c => List.length_replicate
  refine ⟨List.replicate 3000 97, List.replicate 3000 99, List.replicate 3000 98, ?_, ?_,
    C113_rekey_violated _ _ _ (by rw [L, L]) (by rw [L, L]) (by rw [L]; decide) (by rw [L]; decide) ?_ ?_ ?_ ?_ ?_ ?_ 0⟩
  · intro h
    have := congrArg (·.head?) h
    simp only [List.head?_replicate] at this
    revert this
    decide
  · intro h
    have := congrArg (·.head?) h
    simp only [List.head?_replicate] at this
    revert this
    decide
  all_goals first
    | (intro c hc; rw [(List.mem_replicate.mp hc).2]; decide)
    | (rw [List.getLast?_replicate]; decide)

/-! ### passphrases handed on -/

/-- What `db create` and `db rekey` write to `mutecrypt` (ctrlengine/db.go:41-95,193-227). -/
def handOn (ps : List Bytes) : Bytes := (ps.map (· ++ [10])).flatten

theorem firstLine_cons {p rest : Bytes} (hp : ∀ c ∈ p, c ≠ 10) (hr : p.getLast? ≠ some 13) : firstLine (p ++ [10] ++ rest) = p := by
  rw [firstLine_eq]
  rw [List.append_assoc, List.takeWhile_append_of_pos (by simpa using hp)]
  simp [dropCR, hr]

theorem otherLines_cons {p rest : Bytes} (hp : ∀ c ∈ p, c ≠ 10) : otherLines (p ++ [10] ++ rest) = rest := by
  unfold otherLines
  rw [List.append_assoc, List.dropWhile_append_of_pos (by simpa using hp)]
  simp

/-- C113 (partial: passphrases of at most 1023 bytes that do not end with a carriage return): the
passphrase that `db create` accepted is the one `mutecrypt` gives to the key database, however the
pipe between them cuts it. -/
theorem C113_hand_on_partial (p : Bytes) (hl : 2 * p.length + 2 ≤ 2048) (hp : ∀ c ∈ p, c ≠ 10) (hr : p.getLast? ≠ some 13)
    (pipe : List Bytes) (h : pipe.flatten = handOn [p, p]) (n : Nat) (hn : pipe.flatten.length + pipe.length + 2 ≤ n) :
    askCreate n pipe .eof = some (.got p) := by
  have e : pipe.flatten = p ++ [10] ++ (p ++ [10] ++ []) := by rw [h]; simp [handOn]
  have hlen : pipe.flatten.length ≤ 2048 := by rw [e]; simp; omega
  rw [C113_create_partial pipe hlen n hn, e, otherLines_cons hp, firstLine_cons hp hr, firstLine_cons hp hr, if_pos rfl]

/-- C113 (partial: at most 2045 bytes together, not ending with a carriage return): likewise for `db rekey`. -/
theorem C113_hand_on_rekey_partial (o p : Bytes) (hl : o.length + 2 * p.length + 3 ≤ 2048)
    (ho : ∀ c ∈ o, c ≠ 10) (hor : o.getLast? ≠ some 13) (hp : ∀ c ∈ p, c ≠ 10) (hr : p.getLast? ≠ some 13)
    (pipe : List Bytes) (h : pipe.flatten = handOn [o, p, p]) (n : Nat) (hn : pipe.flatten.length + pipe.length + 2 ≤ n) :
    askRekey n pipe .eof = some (.got (o, p)) := by
  have e : pipe.flatten = o ++ [10] ++ (p ++ [10] ++ (p ++ [10] ++ [])) := by rw [h]; simp [handOn]
  have hlen : pipe.flatten.length ≤ 2048 := by rw [e]; simp; omega
  rw [C113_rekey_partial pipe hlen n hn, e, otherLines_cons ho, otherLines_cons hp, firstLine_cons hp hr, firstLine_cons hp hr, if_pos rfl,
    firstLine_cons ho hor]

/-- C113 is violated for a passphrase that ends with a carriage return (the line `p\r\r\n` gives one):
the two databases get different passphrases, without an error. -/
theorem C113_hand_on_violated (p : Bytes) (hl : 2 * p.length + 6 ≤ 2048) (hp : ∀ c ∈ p, c ≠ 10) (hr : p.getLast? ≠ some 13)
    (n : Nat) (hn : 2 * p.length + 9 ≤ n) :
    askCreate n [p ++ [13, 13] ++ [10] ++ (p ++ [13, 13] ++ [10])] .eof = some (.got (p ++ [13])) ∧
    askCreate n [handOn [p ++ [13], p ++ [13]]] .eof = some (.got p) := by
  have nl : ∀ c ∈ p ++ [13], c ≠ 10 := by
    intro c hc
    rcases List.mem_append.mp hc with hc | hc
    · exact hp c hc
    · rw [List.mem_singleton.mp hc]; decide
  have nl2 : ∀ c ∈ p ++ [13, 13], c ≠ 10 := by
    intro c hc
    rcases List.mem_append.mp hc with hc | hc
    · exact hp c hc
    · simp at hc; rw [hc]; decide
  have f1 : ∀ rest, firstLine (p ++ [13] ++ [10] ++ rest) = p := by
    intro rest
    rw [firstLine_eq]
    rw [List.append_assoc, List.takeWhile_append_of_pos (by simpa using nl)]
    simp [dropCR]
  have f2 : ∀ rest, firstLine (p ++ [13, 13] ++ [10] ++ rest) = p ++ [13] := by
    intro rest
    rw [firstLine_eq]
    rw [List.append_assoc, List.takeWhile_append_of_pos (by simpa using nl2)]
    simp [dropCR]
  constructor
  · have e : [p ++ [13, 13] ++ [10] ++ (p ++ [13, 13] ++ [10])].flatten = p ++ [13, 13] ++ [10] ++ (p ++ [13, 13] ++ [10] ++ []) := by simp
    have hlen : [p ++ [13, 13] ++ [10] ++ (p ++ [13, 13] ++ [10])].flatten.length = 2 * p.length + 6 := by rw [e]; simp; omega
    rw [C113_create_partial _ (by omega) n (by rw [hlen]; simp; omega), e, otherLines_cons nl2, f2, f2, if_pos rfl]
  · have e : [handOn [p ++ [13], p ++ [13]]].flatten = p ++ [13] ++ [10] ++ (p ++ [13] ++ [10] ++ []) := by simp [handOn]
    have hlen : [handOn [p ++ [13], p ++ [13]]].flatten.length = 2 * p.length + 4 := by rw [e]; simp; omega
    rw [C113_create_partial _ (by omega) n (by rw [hlen]; simp; omega), e, otherLines_cons nl, f1, f1, if_pos rfl]

/-- A passphrase handed on in pieces. -/
example : askCreate 20 [[97, 98], [10, 97, 98, 10]] .eof = some (.got [97, 98]) :=
  C113_hand_on_partial [97, 98] (by decide) (by decide) (by decide) _ (by decide) 20 (by decide)

example : askRekey 30 [[97, 98, 10, 99], [10, 99, 10]] .eof = some (.got ([97, 98], [99])) :=
  C113_hand_on_rekey_partial [97, 98] [99] (by decide) (by decide) (by decide) (by decide) (by decide) _ (by decide) 30 (by decide)

example : askCreate 20 [[97, 10, 98, 10]] .eof = some .differ := by
  rw [C113_create_partial _ (by decide) _ (by decide)]
  decide

end Verif.Ctrl.Scan

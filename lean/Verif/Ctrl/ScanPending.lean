/-
A scanner of lines at any point of its input: what it will deliver depends only on the text that is
still to come, not on the pieces it arrives in nor on the state of the buffer.
-/
import Verif.Ctrl.ScannerProps

set_option autoImplicit false

namespace Verif.Ctrl.Scan

/-- The unread part of the buffer. -/
def Scanner.held (s : Scanner) : Bytes := (s.buf.drop s.start).take (s.stop - s.start)

/-- The text still to come. -/
def Scanner.pending (s : Scanner) : Bytes := s.held ++ s.input.flatten

/-- A scanner that has not failed. -/
structure Good (s : Scanner) : Prop where
  order : s.start ≤ s.stop
  stop : s.stop ≤ s.buf.length
  size : s.buf.length ≤ 65536
  err : s.err = none ∨ (s.err = some .eof ∧ s.input = [])
  last : s.last = .eof
  /-- nothing is left to read, or there was room for it -/
  room : s.err.isSome = true → s.stop - s.start < 65536

theorem Good.held_length {s : Scanner} (h : Good s) : s.held.length = s.stop - s.start := by
  have := h.order
  have := h.stop
  unfold Scanner.held
  rw [List.length_take, List.length_drop]
  omega

theorem good_new (input : List Bytes) : Good (newScanner input .eof) :=
  ⟨Nat.le_refl _, Nat.zero_le _, Nat.zero_le _, .inl rfl, rfl, by intro h; cases h⟩

theorem pending_new (input : List Bytes) (last : RErr) : (newScanner input last).pending = input.flatten := rfl

/-- Making room changes nothing. -/
theorem Good.ready {s : Scanner} (h : Good s) :
    (s.stop - s.start = 65536 → s.shift.grow = none) ∧
    (s.stop - s.start < 65536 → ∃ t, s.shift.grow = some t ∧ Good t ∧ t.held = s.held ∧ t.stop < t.buf.length ∧ t.stop - t.start = s.stop - s.start ∧
      t.err = s.err ∧ t.input = s.input) := by
  have h1 := h.order
  have h2 := h.stop
  have h3 := h.size
  have hl := h.held_length
  -- the shift
  have hsh : Good s.shift ∧ s.shift.held = s.held ∧ s.shift.err = s.err ∧ s.shift.input = s.input ∧
      s.shift.stop - s.shift.start = s.stop - s.start ∧ s.shift.buf.length = s.buf.length ∧ (s.shift.stop = s.buf.length → s.shift.start = 0) := by
    unfold Scanner.shift
    by_cases hc : 0 < s.start ∧ (s.stop = s.buf.length ∨ s.buf.length / 2 < s.start)
    · rw [if_pos hc]
      have hb : ((s.buf.drop s.start).take (s.stop - s.start) ++ s.buf.drop (s.stop - s.start)).length = s.buf.length := by
        rw [List.length_append, List.length_take, List.length_drop, List.length_drop]; omega
      refine ⟨⟨Nat.zero_le _, ?_, ?_, h.err, h.last, ?_⟩, ?_, rfl, rfl, ?_, hb, fun _ => rfl⟩
      · show s.stop - s.start ≤ _
        rw [hb]; omega
      · show List.length _ ≤ _
        rw [hb]; exact h3
      · intro he
        have := h.room he
        show s.stop - s.start - 0 < 65536
        omega
      · unfold Scanner.held
        simp only [List.drop_zero, Nat.sub_zero]
        rw [List.take_append_of_le_length (by rw [List.length_take, List.length_drop]; omega), List.take_take, Nat.min_self]
      · show s.stop - s.start - 0 = _
        omega
    · rw [if_neg hc]
      exact ⟨h, rfl, rfl, rfl, rfl, rfl, fun hz => by omega⟩
  obtain ⟨g, g1, g2, g3, g4, g5, g6⟩ := hsh
  generalize s.shift = u at g g1 g2 g3 g4 g5 g6
  have k1 := g.order
  have k2 := g.stop
  have k3 := g.size
  have kl := g.held_length
  unfold Scanner.grow
  constructor
  · intro hm
    rw [if_pos (by omega), if_pos (by unfold maxTokenSize; omega)]
  · intro hm
    by_cases hf : u.stop = u.buf.length
    · have h0 : u.start = 0 := g6 (by omega)
      rw [if_pos hf, if_neg (by unfold maxTokenSize; omega)]
      have hsz : u.stop < min (if u.buf.length = 0 then startBufSize else 2 * u.buf.length) maxTokenSize ∧
          min (if u.buf.length = 0 then startBufSize else 2 * u.buf.length) maxTokenSize ≤ 65536 := by
        unfold startBufSize maxTokenSize
        split <;> omega
      generalize min (if u.buf.length = 0 then startBufSize else 2 * u.buf.length) maxTokenSize = size at hsz
      have hheld : (u.buf.drop u.start).take (u.stop - u.start) = u.held := rfl
      simp only [hheld]
      have hbl : (u.held ++ List.replicate (size - u.held.length) 0).length = size := by
        rw [List.length_append, List.length_replicate]; omega
      refine ⟨_, rfl, ⟨Nat.zero_le _, ?_, ?_, g.err, g.last, ?_⟩, ?_, ?_, ?_, g2, g3⟩
      · show u.stop - u.start ≤ _
        rw [hbl]; omega
      · show List.length _ ≤ _
        rw [hbl]; exact hsz.2
      · intro he
        have := g.room he
        show u.stop - u.start - 0 < 65536
        omega
      · rw [← g1]
        show List.take (u.stop - u.start - 0) (List.drop 0 (u.held ++ List.replicate (size - u.held.length) 0)) = _
        rw [Nat.sub_zero, List.drop_zero, List.take_append_of_le_length (by omega), ← kl, List.take_length]
      · show u.stop - u.start < _
        rw [hbl]; omega
      · show u.stop - u.start - 0 = _
        omega
    · rw [if_neg hf]
      exact ⟨u, rfl, g, g1, by omega, g4, g2, g3⟩

/-- A read moves text from the input to the buffer. -/
theorem Good.read {s : Scanner} (h : Good s) (hr : s.stop < s.buf.length) (hm : s.stop - s.start < 65536) (he : s.err = none) :
    Good s.read ∧ s.read.pending = s.pending ∧ fuel s.read < fuel s := by
  have h1 := h.order
  have h2 := h.stop
  have h3 := h.size
  unfold Scanner.read
  cases hin : s.input with
  | nil =>
    refine ⟨⟨h1, h2, h3, .inr ⟨?_, rfl⟩, h.last, fun _ => hm⟩, ?_, ?_⟩
    · rw [h.last]
    · unfold Scanner.pending Scanner.held
      simp only [hin]
    · simp [fuel, he, hin]
  | cons c cs =>
    simp only []
    have hdl : (c.take (s.buf.length - s.stop)).length = min (s.buf.length - s.stop) c.length := by rw [List.length_take]
    have hdp : c.take (s.buf.length - s.stop) = c.take (c.take (s.buf.length - s.stop)).length := by
      rw [List.length_take, List.take_eq_take_min]
    generalize c.take (s.buf.length - s.stop) = d at hdl hdp
    have hcat : c = d ++ c.drop d.length := by
      conv => lhs; rw [← List.take_append_drop d.length c]
      rw [← hdp]
    have hb : (s.buf.take s.stop ++ d ++ s.buf.drop (s.stop + d.length)).length = s.buf.length := by
      rw [List.length_append, List.length_append, List.length_take, List.length_drop]; omega
    have hinput : (if d.length = c.length then cs else c.drop d.length :: cs).flatten = c.drop d.length ++ cs.flatten := by
      split
      · rename_i hz; rw [hz, List.drop_length, List.nil_append]
      · rw [List.flatten_cons]
    refine ⟨⟨?_, ?_, ?_, .inl he, h.last, ?_⟩, ?_, ?_⟩
    · show s.start ≤ s.stop + d.length
      omega
    · show s.stop + d.length ≤ _
      rw [hb]; omega
    · show List.length _ ≤ _
      rw [hb]; exact h3
    · intro hz
      rw [he] at hz
      cases hz
    · unfold Scanner.pending Scanner.held
      simp only [hinput, hin, List.flatten_cons]
      have e1 : (s.buf.take s.stop ++ d ++ s.buf.drop (s.stop + d.length)).drop s.start = (s.buf.take s.stop).drop s.start ++ (d ++ s.buf.drop (s.stop + d.length)) := by
        rw [List.append_assoc, List.drop_append_of_le_length (by rw [List.length_take]; omega)]
      have e2 : (s.buf.take s.stop).drop s.start = (s.buf.drop s.start).take (s.stop - s.start) := by rw [List.drop_take]
      have e3 : ((s.buf.drop s.start).take (s.stop - s.start)).length = s.stop - s.start := h.held_length
      rw [e1, e2]
      have e4 : s.stop + d.length - s.start = ((s.buf.drop s.start).take (s.stop - s.start)).length + d.length := by omega
      rw [e4, List.take_length_add_append, List.take_append_of_le_length (Nat.le_refl _), List.take_length]
      conv => rhs; rw [hcat]
      simp only [List.append_assoc]
    · simp only [fuel, he, hin, Option.isSome_none, Bool.false_eq_true, if_false, hinput, List.flatten_cons]
      have hcl : c.length = d.length + (c.drop d.length).length := by rw [List.length_drop]; omega
      split
      · rename_i hz
        simp only [List.length_append, List.length_cons, List.length_drop]
        omega
      · rename_i hz
        simp only [List.length_append, List.length_cons, List.length_drop]
        have : 0 < d.length := by
          have : c.length ≠ 0 := fun h0 => by omega
          omega
        omega

theorem held_prefix (s : Scanner) : s.held <+: s.pending := ⟨_, rfl⟩

theorem first_of_index {P : Bytes} {i : Nat} (hi : i < P.length) (h0 : (P.take i).all (· ≠ 10) = true) (h1 : P[i] = 10) :
    P.takeWhile (· ≠ 10) = P.take i ∧ otherLines P = P.drop (i + 1) := by
  have hP : P = P.take i ++ (10 :: P.drop (i + 1)) := by
    conv => lhs; rw [← List.take_append_drop i P, List.drop_eq_getElem_cons hi, h1]
  have ha : ∀ c ∈ P.take i, decide (c ≠ 10) = true := List.all_eq_true.mp h0
  generalize P.take i = a at hP ha
  generalize P.drop (i + 1) = b at hP
  subst hP
  constructor
  · rw [List.takeWhile_append_of_pos ha]; simp
  · unfold otherLines
    rw [List.dropWhile_append_of_pos ha]
    simp

/-- One scan. The text is split at the first line feed, in whatever pieces it arrives. -/
theorem scan_pending : ∀ (n : Nat) (s : Scanner), Good s → fuel s ≤ n →
    ∃ r t, scanN n s = some (r, t) ∧
      (s.pending = [] → r = none ∧ t.err = some .eof ∧ t.input = []) ∧
      (s.pending ≠ [] → (s.pending.takeWhile (· ≠ 10)).length ≤ 65535 →
        ∃ v, r = some v ∧ t.view v = firstLine s.pending ∧ t.pending = otherLines s.pending ∧ Good t ∧ fuel t ≤ fuel s) ∧
      (65535 < (s.pending.takeWhile (· ≠ 10)).length → r = none ∧ t.err = some .tooLong) := by
  intro n
  induction n with
  | zero =>
    intro s _ hf
    unfold fuel at hf
    split at hf <;> omega
  | succ n ih =>
    intro s h hf
    have h1 := h.order
    have h2 := h.stop
    have h3 := h.size
    have hl := h.held_length
    unfold scanN
    have hview : ∀ (s' : Scanner) (len : Nat), s'.old = s.old → s'.buf = s.buf → len ≤ s.stop - s.start →
        s'.view ⟨s.old.length, s.start, len⟩ = s.held.take len := by
      intro s' len e1 e2 hle
      unfold Scanner.view Scanner.held
      rw [e1, e2]
      simp only [List.getD_eq_getElem?_getD]
      rw [List.getElem?_append_right (Nat.le_refl _)]
      simp only [Nat.sub_self, List.getElem?_cons_zero, Option.getD_some]
      rw [List.take_take, Nat.min_eq_left hle]
    cases htok : s.token with
    | some p =>
      obtain ⟨adv, len⟩ := p
      have hpos : s.start < s.stop ∨ s.err.isSome = true := by
        apply Classical.byContradiction
        intro hc
        unfold Scanner.token at htok
        rw [if_neg hc] at htok
        cases htok
      unfold Scanner.token at htok
      rw [if_pos hpos] at htok
      change scanLines s.held s.err.isSome = some (adv, len) at htok
      unfold scanLines at htok
      refine ⟨_, _, rfl, ?_⟩
      -- the position after the token
      have hpend : ∀ k, k ≤ s.held.length → ({ s with start := s.start + k } : Scanner).pending = s.pending.drop k := by
        intro k hk
        unfold Scanner.pending Scanner.held
        rw [List.drop_append_of_le_length (by exact hk), List.drop_take, List.drop_drop]
        simp only
        congr 2
        omega
      rcases findIdx_nl s.held with ⟨f1, f2⟩ | ⟨i, f1, f2, f3, f4⟩
      · rw [f1] at htok
        simp only at htok
        split at htok
        · rename_i hc
          have her := h.err.resolve_left (by intro hz; rw [hz] at hc; cases hc.1)
          have hP : s.pending = s.held := by unfold Scanner.pending; rw [her.2]; simp
          injection htok with htok
          injection htok with e1 e2
          have hroom := h.room hc.1
          have htw : s.held.takeWhile (· ≠ 10) = s.held := takeWhile_all f2
          have hle := dropCR_length s.held
          rw [hP]
          refine ⟨fun hz => absurd hz hc.2, fun _ _ => ⟨_, rfl, ?_, ?_, ?_, ?_⟩, ?_⟩
          · rw [hview { s with start := s.start + adv } len rfl rfl (by omega), firstLine_eq, htw, ← e2, dropCR_prefix]
          · rw [hpend adv (by omega), hP, ← e1, List.drop_length]
            unfold otherLines
            rw [dropWhile_all f2]; rfl
          · refine ⟨?_, h2, h3, h.err, h.last, ?_⟩
            · show s.start + adv ≤ s.stop
              omega
            · intro _
              show s.stop - (s.start + adv) < 65536
              omega
          · exact Nat.le_refl _
          · intro hL
            rw [htw] at hL
            omega
        · cases htok
      · rw [f1] at htok
        simp only at htok
        injection htok with htok
        injection htok with e1 e2
        have hpi : i < s.pending.length := by
          have := (held_prefix s).length_le
          omega
        have hin : s.pending.take i = s.held.take i := by
          unfold Scanner.pending
          rw [List.take_append_of_le_length (by omega)]
        -- the first line of the whole text
        have hfirst : s.pending.takeWhile (· ≠ 10) = s.held.take i ∧ otherLines s.pending = s.pending.drop (i + 1) := by
          rw [← hin]
          rcases findIdx_nl s.pending with ⟨q1, _⟩ | ⟨j, q1, q2, q3, q4⟩
          · exfalso
            have : s.pending.findIdx? (· = 10) = some i := by
              unfold Scanner.pending
              rw [List.findIdx?_append, f1]; rfl
            rw [this] at q1; cases q1
          · have hj : s.pending.findIdx? (· = 10) = some i := by
              unfold Scanner.pending
              rw [List.findIdx?_append, f1]; rfl
            rw [hj] at q1
            injection q1 with q1
            subst q1
            refine ⟨q3.symm, ?_⟩
            unfold otherLines
            exact q4.symm
        have hle := dropCR_length (s.held.take i)
        have hti : (s.held.take i).length = i := by rw [List.length_take]; omega
        refine ⟨?_, fun _ _ => ⟨_, rfl, ?_, ?_, ?_, ?_⟩, ?_⟩
        · intro hz
          rw [hz] at hpi
          simp at hpi
        · rw [hview { s with start := s.start + adv } len rfl rfl (by omega), firstLine_eq, hfirst.1, ← e2]
          conv => rhs; rw [← dropCR_prefix, List.take_take, Nat.min_eq_left (by omega)]
        · rw [hpend adv (by omega), hfirst.2, ← e1]
        · refine ⟨?_, h2, h3, h.err, h.last, ?_⟩
          · show s.start + adv ≤ s.stop
            omega
          · intro he
            have := h.room he
            show s.stop - (s.start + adv) < 65536
            omega
        · exact Nat.le_refl _
        · intro hL
          rw [hfirst.1, hti] at hL
          omega
    | none =>
      simp only []
      by_cases he : s.err.isSome = true
      · rw [if_pos he]
        have her := h.err.resolve_left (by intro hz; rw [hz] at he; cases he)
        have hheld : s.held = [] := by
          unfold Scanner.token at htok
          rw [if_pos (.inr he)] at htok
          change scanLines s.held s.err.isSome = none at htok
          unfold scanLines at htok
          split at htok
          · cases htok
          · split at htok
            · cases htok
            · rename_i hc
              apply Classical.byContradiction
              intro hz
              exact hc ⟨he, hz⟩
        have hP : s.pending = [] := by unfold Scanner.pending; rw [her.2, hheld]; rfl
        rw [hP]
        refine ⟨_, _, rfl, fun _ => ⟨rfl, her.1, her.2⟩, fun hz => absurd rfl hz, ?_⟩
        intro hL
        simp at hL
      · rw [if_neg he]
        have hen : s.err = none := by
          cases hq : s.err with
          | none => rfl
          | some e => rw [hq] at he; exact absurd rfl he
        -- no line feed in the buffer
        have hno : ∀ c ∈ s.held, c ≠ 10 := by
          by_cases hp : s.start < s.stop
          · unfold Scanner.token at htok
            rw [if_pos (.inl hp)] at htok
            change scanLines s.held s.err.isSome = none at htok
            unfold scanLines at htok
            rcases findIdx_nl s.held with ⟨_, f2⟩ | ⟨i, f1, _⟩
            · exact f2
            · rw [f1] at htok
              cases htok
          · intro c hc
            have hz : s.held = [] := List.length_eq_zero_iff.mp (by omega)
            rw [hz] at hc
            cases hc
        obtain ⟨r1, r2⟩ := h.ready
        by_cases hm : s.stop - s.start < 65536
        · obtain ⟨t, g1, g2, g3, g4, g5, g6, g7⟩ := r2 hm
          rw [g1]
          simp only []
          obtain ⟨k1, k2, k3⟩ := g2.read g4 (by omega) (by rw [g6]; exact hen)
          have hft : fuel t = fuel s := by unfold fuel; rw [g6, g7]
          obtain ⟨r, u, q1, q2, q3, q4⟩ := ih t.read k1 (by omega)
          have hP : t.read.pending = s.pending := by
            rw [k2]; unfold Scanner.pending; rw [g3, g7]
          rw [hP] at q2 q3 q4
          refine ⟨r, u, q1, q2, ?_, q4⟩
          intro hz hL
          obtain ⟨v, w1, w2, w3, w4, w5⟩ := q3 hz hL
          exact ⟨v, w1, w2, w3, w4, by omega⟩
        · have hb : s.stop - s.start = 65536 := by omega
          rw [r1 hb]
          simp only []
          have hlong : 65535 < (s.pending.takeWhile (· ≠ 10)).length := by
            unfold Scanner.pending
            rw [List.takeWhile_append_of_pos (fun c hc => by simpa using hno c hc), List.length_append]
            omega
          refine ⟨_, _, rfl, ?_, fun _ hL => absurd hL (by omega), fun _ => ⟨rfl, rfl⟩⟩
          intro hz
          rw [hz] at hlong
          simp at hlong

end Verif.Ctrl.Scan

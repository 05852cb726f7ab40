/-
The invariant of the transfer: the steps of the main goroutine.
-/
import Verif.Ctrl.TransferInv

namespace Verif.Ctrl.Transfer
open Verif.Sql Verif.Msgdb

variable {J : Job} {s : State}

theorem enc6_plain : ∀ n, n < 64 → 33 ≤ Base64.enc6 n := by decide

theorem encode_plain (b : Bytes) : Plain (Base64.encode b) := by
  intro c hc
  fun_induction Base64.encode b with
  | case1 => cases hc
  | case2 a =>
    simp only [List.mem_cons, List.not_mem_nil, or_false] at hc
    rcases hc with rfl | rfl | rfl | rfl
    · exact enc6_plain _ (by have := a.toNat_lt; omega)
    · exact enc6_plain _ (by have := a.toNat_lt; omega)
    · decide
    · decide
  | case3 a b =>
    simp only [List.mem_cons, List.not_mem_nil, or_false] at hc
    rcases hc with rfl | rfl | rfl | rfl
    · exact enc6_plain _ (by have := a.toNat_lt; omega)
    · exact enc6_plain _ (by have := a.toNat_lt; have := b.toNat_lt; omega)
    · exact enc6_plain _ (by have := b.toNat_lt; omega)
    · decide
  | case4 a b d t ih =>
    simp only [List.mem_cons] at hc
    rcases hc with rfl | rfl | rfl | rfl | hc
    · exact enc6_plain _ (by have := a.toNat_lt; omega)
    · exact enc6_plain _ (by have := a.toNat_lt; have := b.toNat_lt; omega)
    · exact enc6_plain _ (by have := b.toNat_lt; have := d.toNat_lt; omega)
    · exact enc6_plain _ (by have := d.toNat_lt; omega)
    · exact ih hc

theorem sent_plain {m : Mail} (h : Sent m) : Plain m.id := by
  obtain ⟨⟨raw, e⟩, _⟩ := h
  rw [e]; exact encode_plain raw

theorem plain_no_lf {x : Bytes} (h : Plain x) : 10 ∉ x := fun e => absurd (h 10 e) (by decide)

/-! ### lines at the front of the stream -/

theorem line_split (n v r : Bytes) : line n v ++ r = (n ++ 9 :: v) ++ 10 :: r := by
  simp only [line, List.append_assoc, List.cons_append, List.nil_append]

theorem take_line {n v r a b : Bytes} (ha : 10 ∉ a) (hn : 10 ∉ n) (hv : 10 ∉ v) (h : a ++ 10 :: b = line n v ++ r) : a = n ++ 9 :: v ∧ b = r := by
  rw [line_split] at h
  refine first_line ha ?_ h
  intro e
  rcases List.mem_append.1 e with e | e
  · exact hn e
  · rcases List.mem_cons.1 e with e | e
    · exact absurd e (by decide)
    · exact hv e

theorem takeWhile_lf (e r : Bytes) : ∃ r', e ++ 10 :: r = e.takeWhile (· != 10) ++ 10 :: r' ∧ 10 ∉ e.takeWhile (· != 10) := by
  induction e with
  | nil => exact ⟨r, rfl, by simp⟩
  | cons c t ih =>
    by_cases hc : c = 10
    · subst hc
      exact ⟨t ++ 10 :: r, by simp, by simp⟩
    · obtain ⟨r', e1, e2⟩ := ih
      have h1 : (c :: t).takeWhile (· != 10) = c :: t.takeWhile (· != 10) := by
        rw [List.takeWhile_cons_of_pos]; simpa using hc
      refine ⟨r', by rw [h1, List.cons_append, List.cons_append, e1], ?_⟩
      rw [h1]
      intro h
      rcases List.mem_cons.1 h with h | h
      · exact hc h.symm
      · exact e2 h

/-- Part of the stream is used. -/
theorem sync_drop {a b want want' : Bytes} {l : List Mail} {mn : Main} {q : List Cmd} (h : Sync J s want l) (hb : s.buf = a ++ 10 :: b) (x : Bytes) (hw : want = x ++ want')
    (hx : x = a ++ [10]) : Sync J { s with buf := b, main := mn, cmd := q } want' l := by
  obtain ⟨f, h1, h2, h3, h4⟩ := h
  refine ⟨f, ?_, h2, h3, ?_⟩
  · rw [hb, hw, hx] at h1
    simp only [List.append_assoc, List.cons_append, List.nil_append] at h1
    have := List.append_cancel_left h1
    injection this with _ this
  · intro m r hl
    have := h4 m r hl
    rw [hb, hw, hx] at this
    simp only [List.length_append, List.length_cons, List.length_nil] at this ⊢
    omega

/-- The first line of the stream. -/
theorem front {a b want : Bytes} {l : List Mail} (h : Sync J s want l) (hb : s.buf = a ++ 10 :: b) : ∃ r, want = a ++ 10 :: r := by
  obtain ⟨f, h1, _⟩ := h
  rw [hb] at h1
  exact ⟨b ++ (s.stat ++ f), by rw [← h1]; simp only [List.append_assoc, List.cons_append]⟩

theorem body_ne (m : Mail) (l : List Mail) : body J m l ≠ [] := by
  intro h
  have := congrArg List.length h
  have h5 := line_pos m
  simp only [body, List.length_append, List.length_nil] at this
  omega

theorem stream_ne (l : List Mail) : stream J l ≠ [] := by
  cases l with
  | nil => unfold stream lastLine; split <;> simp
  | cons m l =>
    intro h
    have := congrArg List.length h
    have h5 := line_pos m
    simp only [stream, List.length_append, List.length_nil] at this
    omega

theorem fut_nil {p : Proto} (ha : p.alive = true) (h : p.fut J = []) : p = .say [] .exit := by
  cases p with
  | head l => exact absurd h (stream_ne l)
  | say r k =>
    obtain ⟨h1, h2⟩ := List.append_eq_nil_iff.1 h
    subst h1
    cases k with
    | await m l => exact absurd h2 (body_ne m l)
    | time m l => exact absurd (List.append_eq_nil_iff.1 h2).2 (stream_ne l)
    | head l => exact absurd h2 (stream_ne l)
    | exit => rfl
  | await m l => exact absurd h (body_ne m l)
  | text r m l => exact absurd h (body_ne m l)
  | exited b => cases ha

theorem fut_body {p : Proto} {m : Mail} {l : List Mail} (ha : p.alive = true) (hl : p.lst = m :: l) (h : (p.fut J).length ≤ (body J m l).length) :
    p = .await m l ∨ p = .say [] (.await m l) := by
  have h5 := line_pos m
  cases p with
  | head l' =>
    simp only [Proto.lst] at hl; subst hl
    simp only [Proto.fut, stream, body, List.length_append] at h; omega
  | say r k =>
    simp only [Proto.lst] at hl
    cases k with
    | await m' l' =>
      simp only [Cont.lst, List.cons.injEq] at hl
      obtain ⟨rfl, rfl⟩ := hl
      simp only [Proto.fut, Cont.fut, List.length_append] at h
      have : r = [] := List.length_eq_zero_iff.1 (by omega)
      subst this; exact .inr rfl
    | time m' l' =>
      simp only [Cont.lst] at hl; subst hl
      simp only [Proto.fut, Cont.fut, stream, body, List.length_append] at h; omega
    | head l' =>
      simp only [Cont.lst] at hl; subst hl
      simp only [Proto.fut, Cont.fut, stream, body, List.length_append] at h; omega
    | exit => cases hl
  | await m' l' =>
    simp only [Proto.lst, List.cons.injEq] at hl
    obtain ⟨rfl, rfl⟩ := hl
    exact .inl rfl
  | text r m' l' =>
    simp only [Proto.lst] at hl; subst hl
    simp only [Proto.fut, body, stream, List.length_append] at h; omega
  | exited b => cases ha

/-! ### the status lines -/

theorem hopeless_fail {e : Bytes} (h : J.fail = some e) : Hopeless J := .inl (by rw [h]; exact Option.some_ne_none e)

theorem inv_hearId (hj : ∀ m ∈ J.mails, Sent m) {a b : Bytes} (hi : Inv J s) (hm : s.main = .id) (hb : s.buf = a ++ 10 :: b) (ha : 10 ∉ a) :
    Inv J (onId J { s with buf := b } (Transfer.hearId a)) := by
  unfold Inv at hi
  rw [hm] at hi
  obtain ⟨pre, l, h⟩ := hi
  obtain ⟨r, hr⟩ := front h.sync hb
  have hpre : s.ops <+: fetchOps J.my J.c J.cache J.mails := by rw [h.ops]; exact flat_prefix h.mails h.past.fresh
  cases l with
  | nil =>
    simp only [stream] at hr
    cases hf : J.fail with
    | none =>
      rw [hf] at hr
      simp only [lastLine] at hr
      obtain ⟨h1, h2⟩ := first_line (by decide +kernel : (10 : UInt8) ∉ txtNone) ha hr
      rw [← h1, hearId_none]
      show s.ops = _ ∧ _ = _ ∧ _
      refine ⟨?_, ?_, ?_⟩
      · rw [h.ops, h.mails, fetchOps_append J pre [] h.past.fresh]; simp only [fetchOps, List.append_nil]
      · show s.new.getD 0 = _
        rw [h.past.new]; exact lastTime_eq h.mails h.past.fresh (.inl rfl)
      · obtain ⟨f, e1, e2, e3, _⟩ := h.sync
        rcases alive_or s.proto with hal | ⟨c, hc⟩
        · obtain ⟨e4, _⟩ := e2 hal
          refine .inr (.inr ⟨?_, hf⟩)
          rw [hb, stream, hf, lastLine, List.append_assoc, List.cons_append] at e1
          obtain ⟨_, e5⟩ := first_line ha (by decide +kernel : (10 : UInt8) ∉ txtNone) e1
          have e6 := (List.append_eq_nil_iff.1 (List.append_eq_nil_iff.1 e5).2).2
          rw [e4] at e6
          exact fut_nil hal e6
        · rcases e3 c hc with e | ⟨_, e, _⟩
          · exact .inl ⟨c, hc, .inr e⟩
          · exact .inl ⟨c, hc, .inl (by rw [e, hf]; rfl)⟩
    | some e =>
      rw [hf] at hr
      simp only [lastLine] at hr
      obtain ⟨r', e1, e2⟩ := takeWhile_lf e []
      rw [e1, ← List.append_assoc] at hr
      obtain ⟨h1, h2⟩ := first_line (by
        intro hmem
        rcases List.mem_append.1 hmem with hmem | hmem
        · exact absurd hmem (by decide +kernel)
        · exact e2 hmem) ha hr
      rw [← h1]
      rcases hearId_error (e.takeWhile (· != 10)) with hh | hh
      · rw [hh]
        exact .inr ⟨rfl, hpre, e, hf, hh⟩
      · rw [hh]
        exact ⟨hpre, .inr (hopeless_fail hf)⟩
  | cons m l =>
    have hmem : m ∈ J.mails := by rw [h.mails]; simp
    have hpl := sent_plain (hj m hmem)
    have hr2 : a ++ 10 :: r = line txtId m.id ++ body J m l := by rw [← hr]; rfl
    obtain ⟨h1, h2⟩ := take_line ha (by decide +kernel) (plain_no_lf hpl) hr2
    by_cases hid : m.id = []
    · rw [h1, hid, hearId_empty]
      exact ⟨hpre, .inr (.inr ⟨m, hmem, .inl hid⟩)⟩
    rw [h1, hearId_line hpl hid]
    have hsync : ∀ mn q, Sync J { s with buf := b, main := mn, cmd := q } (body J m l) (m :: l) := fun mn q =>
      sync_drop h.sync hb (idLine m) rfl (by rw [h1]; simp only [idLine, line, List.append_assoc, List.cons_append])
    have hempty : b = [] ∧ s.stat = [] := by
      obtain ⟨f, e1, e2, e3, e4⟩ := hsync s.main s.cmd
      have := e4 m l rfl
      simp only [] at this
      exact ⟨List.length_eq_zero_iff.1 (by omega), List.length_eq_zero_iff.1 (by omega)⟩
    unfold onId
    simp only []
    split
    · next hk =>
      refine ⟨pre, m, l, h.mails, h.past.fresh, h.past.new, rfl, hk, h.ops, ?_⟩
      obtain ⟨f, e1, e2, e3, e4⟩ := h.sync
      rcases alive_or s.proto with hal | ⟨c, hc⟩
      · refine .inr (.inl ⟨by simp only [h.cmd, List.nil_append], m, l, ?_⟩)
        obtain ⟨e5, e6⟩ := e2 hal
        refine fut_body (J := J) (p := s.proto) hal e6 ?_
        obtain ⟨f', e1', e2', _⟩ := hsync s.main s.cmd
        obtain ⟨e5', _⟩ := e2' hal
        have := congrArg List.length e1'
        rw [e5'] at this
        simp only [List.length_append] at this
        omega
      · rcases e3 c hc with e | ⟨_, _, e⟩
        · exact .inl ⟨c, hc, .inr e⟩
        · cases e
    · next hk =>
      refine ⟨pre, m, l, true, ⟨h.mails, ⟨h.past.fresh, h.past.new, h.past.held⟩, hk, ⟨hsync _ _, fun _ => ⟨h.got, hempty.1, hempty.2, rfl⟩, fun e => (Bool.noConfusion e),
        .inl hempty, by simp only [h.cmd, List.nil_append, if_true]⟩⟩, rfl, h.ops, h.coll⟩

theorem flow_b {m : Mail} {l : List Mail} {c : Bool} {want a b : Bytes} (h : Flow J s m l c want) (hb : s.buf = a ++ 10 :: b) : c = false ∧ got s = m.text := by
  have hne : s.buf ≠ [] := by rw [hb]; simp
  constructor
  · cases c with
    | false => rfl
    | true => exact absurd (h.early rfl).2.1 hne
  · rcases h.full with h | h
    · exact absurd h.1 hne
    · exact h

theorem inv_hearLen {a b : Bytes} (hi : Inv J s) (hm : s.main = .len) (hb : s.buf = a ++ 10 :: b) (ha : 10 ∉ a) :
    Inv J { s with buf := b, main := match Transfer.hearLen a with | some n => .time n | none => .ret none } := by
  unfold Inv at hi
  rw [hm] at hi
  obtain ⟨pre, m, l, c, h, ho, hc⟩ := hi
  obtain ⟨rfl, hg⟩ := flow_b h.flow hb
  have hmem : m ∈ J.mails := by rw [h.mails]; simp
  obtain ⟨r, hr⟩ := front h.flow.sync hb
  have hr2 : a ++ 10 :: r = line txtLen (dec m.text.length) ++ (timeLine m ++ stream J l) := by rw [← hr]; rfl
  obtain ⟨h1, h2⟩ := take_line ha (by decide +kernel) (not_mem_dec (by decide) _) hr2
  rw [h1, hearLen_line]
  by_cases hn : m.text.length < 2 ^ 64
  · rw [if_pos hn]
    exact ⟨pre, m, l, ⟨h.mails, ⟨h.past.fresh, h.past.new, h.past.held⟩, h.unknown,
      ⟨sync_drop h.flow.sync hb (lenLine m) rfl (by rw [h1]; simp only [lenLine, line, List.append_assoc, List.cons_append]),
        fun e => (Bool.noConfusion e), h.flow.text, .inr hg, h.flow.cmd⟩⟩, hg, ho, hc, rfl⟩
  · rw [if_neg hn]
    refine ⟨?_, .inr (.inr ⟨m, hmem, .inr (by omega)⟩)⟩
    show s.ops <+: _
    rw [ho]; exact flat_add_prefix h.mails h.past.fresh h.unknown

theorem inv_hearTime (hj : ∀ m ∈ J.mails, Sent m) {a b : Bytes} {n : Nat} (hi : Inv J s) (hm : s.main = .time n) (hb : s.buf = a ++ 10 :: b) (ha : 10 ∉ a) :
    Inv J { s with buf := b, main := match Transfer.hearTime a with | some t => .stop n t | none => .ret none } := by
  unfold Inv at hi
  rw [hm] at hi
  obtain ⟨pre, m, l, h, hg, ho, hc, hn⟩ := hi
  have hmem : m ∈ J.mails := by rw [h.mails]; simp
  obtain ⟨r, hr⟩ := front h.flow.sync hb
  have hr2 : a ++ 10 :: r = line txtTime (decInt m.time) ++ stream J l := by rw [← hr]; rfl
  obtain ⟨h1, h2⟩ := take_line ha (by decide +kernel) (not_mem_decInt (by decide) (by decide) _) hr2
  rw [h1, hearTime_line (hj m hmem).2.2]
  exact ⟨pre, m, l, ⟨h.mails, ⟨h.past.fresh, h.past.new, h.past.held⟩, h.unknown,
    ⟨sync_drop h.flow.sync hb (timeLine m) rfl (by rw [h1]; simp only [timeLine, line, List.append_assoc, List.cons_append]),
      fun e => (Bool.noConfusion e), h.flow.text, .inr hg, h.flow.cmd⟩⟩, hg, ho, hc, hn, rfl⟩

theorem inv_fill {a b : Bytes} (hi : Inv J s) (hst : s.stat = a ++ b) (ha : a ≠ []) : Inv J { s with buf := s.buf ++ a, stat := b } := by
  have hs : ∀ want l, Sync J s want l → Sync J { s with buf := s.buf ++ a, stat := b } want l := by
    rintro want l ⟨f, h1, h2, h3, h4⟩
    refine ⟨f, ?_, h2, h3, ?_⟩
    · rw [← h1, hst]; simp only [List.append_assoc]
    · intro m r hl
      have := h4 m r hl
      rw [hst] at this
      simp only [List.length_append] at this ⊢
      omega
  have hne : s.stat ≠ [] := by rw [hst]; intro e; exact ha (List.append_eq_nil_iff.1 e).1
  have hb : ∀ pre m l c want, Body J s pre m l c want → Body J { s with buf := s.buf ++ a, stat := b } pre m l c want := by
    intro pre m l c want h
    refine ⟨h.mails, ⟨h.past.fresh, h.past.new, h.past.held⟩, h.unknown, ⟨hs _ _ h.flow.sync, fun e => ?_, h.flow.text, .inr ?_, h.flow.cmd⟩⟩
    · exact absurd (h.flow.early e).2.2.1 hne
    · rcases h.flow.full with e | e
      · exact absurd e.2 hne
      · exact e
  unfold Inv at hi ⊢
  simp only []
  split at hi
  · obtain ⟨pre, l, h⟩ := hi
    exact ⟨pre, l, h.mails, ⟨h.past.fresh, h.past.new, h.past.held⟩, h.ops, h.cmd, h.coll, h.got, hs _ _ h.sync⟩
  · obtain ⟨pre, m, l, b, h, r⟩ := hi; exact ⟨pre, m, l, b, hb _ _ _ _ _ h, r⟩
  · obtain ⟨pre, m, l, b, h, r⟩ := hi; exact ⟨pre, m, l, b, hb _ _ _ _ _ h, r⟩
  · obtain ⟨pre, m, l, h, r⟩ := hi; exact ⟨pre, m, l, hb _ _ _ _ _ h, r⟩
  · obtain ⟨pre, m, l, h, r⟩ := hi; exact ⟨pre, m, l, hb _ _ _ _ _ h, r⟩
  · obtain ⟨pre, m, l, h, r⟩ := hi; exact ⟨pre, m, l, hb _ _ _ _ _ h, r⟩
  · obtain ⟨pre, m, l, h, r⟩ := hi; exact ⟨pre, m, l, hb _ _ _ _ _ h, r⟩
  · exact hi
  · exact hi
  · exact hi
  · exact hi

/-- Every stream that is waited for has a line. -/
theorem has_lf : (∀ l, 10 ∈ stream J l) ∧ (∀ m l, 10 ∈ body J m l) ∧ ∀ m l, 10 ∈ timeLine m ++ stream J l := by
  have h1 : ∀ n v r, (10 : UInt8) ∈ line n v ++ r := fun n v r => by rw [line_split]; simp
  refine ⟨fun l => ?_, fun m l => h1 _ _ _, fun m l => h1 _ _ _⟩
  cases l with
  | nil => unfold stream lastLine; split <;> simp
  | cons m l => exact h1 _ _ _

theorem eof_fault {want : Bytes} {l : List Mail} {b : Bool} (h : Sync J s want l) (hw : 10 ∈ want) (h1 : 10 ∉ s.buf) (h2 : s.stat = []) (h3 : s.proto = .exited b) :
    0 < s.faults := by
  obtain ⟨f, e1, _, e3, _⟩ := h
  rcases e3 b h3 with e | ⟨e, _⟩
  · exact e
  · rw [h2, e] at e1
    simp only [List.append_nil] at e1
    rw [← e1] at hw
    exact absurd hw h1

theorem inv_eof {b : Bool} (hi : Inv J s) (hr : s.main.reads = true) (h1 : 10 ∉ s.buf) (h2 : s.stat = []) (h3 : s.proto = .exited b) :
    Inv J { s with main := .ret none } := by
  unfold Inv at hi
  show s.ops <+: _ ∧ (0 < s.faults ∨ _)
  split at hi
  · obtain ⟨pre, l, h⟩ := hi
    exact ⟨by rw [h.ops]; exact flat_prefix h.mails h.past.fresh, .inl (eof_fault h.sync (has_lf.1 _) h1 h2 h3)⟩
  · next hm => rw [hm] at hr; cases hr
  · obtain ⟨pre, m, l, b, h, ho, _⟩ := hi
    exact ⟨by rw [ho]; exact flat_add_prefix h.mails h.past.fresh h.unknown, .inl (eof_fault h.flow.sync (has_lf.2.1 _ _) h1 h2 h3)⟩
  · obtain ⟨pre, m, l, h, _, ho, _⟩ := hi
    exact ⟨by rw [ho]; exact flat_add_prefix h.mails h.past.fresh h.unknown, .inl (eof_fault h.flow.sync (has_lf.2.2 _ _) h1 h2 h3)⟩
  all_goals (rename_i hm; rw [hm] at hr; cases hr)

/-! ### the database -/

theorem inv_remove {x : Bytes} (hi : Inv J s) (hm : s.main = .quit x) : Inv J { s with main := .finish, ops := s.ops ++ [.removeCache J.my J.c x] } := by
  unfold Inv at hi
  rw [hm] at hi
  obtain ⟨pre, m, l, h1, h2, h3, h4, h5, h6, h7⟩ := hi
  refine ⟨?_, ?_, h7⟩
  · show s.ops ++ _ = _
    rw [h6, h1, fetchOps_append J pre _ h2, fetchOps, if_pos h5, h4]
  · show s.new.getD 0 = _
    rw [h3]; exact lastTime_eq h1 h2 (.inr ⟨m, l, rfl, h5⟩)

theorem inv_add {x : Bytes} (hi : Inv J s) (hm : s.main = .add x) : Inv J { s with main := .len, coll := .select, ops := s.ops ++ [.addCache J.my J.c x] } := by
  unfold Inv at hi
  rw [hm] at hi
  obtain ⟨pre, m, l, b, h, hx, ho, hc⟩ := hi
  refine ⟨pre, m, l, b, ⟨h.mails, ⟨h.past.fresh, h.past.new, h.past.held⟩, h.unknown, ⟨h.flow.sync, h.flow.early, h.flow.text, h.flow.full, h.flow.cmd⟩⟩, ?_, rfl⟩
  show s.ops ++ _ = _
  rw [ho, hx]

theorem inv_store {t : Int} (hi : Inv J s) (hm : s.main = .store t) :
    Inv J { s with main := .id, ops := s.ops ++ [.addInQueue J.my J.c t s.outbuf], outbuf := [], new := s.new <|> some t } := by
  unfold Inv at hi
  rw [hm] at hi
  obtain ⟨pre, m, l, h, hg, ho, hc, hl, ht⟩ := hi
  have h1 := congrArg List.length hg
  simp only [got, List.length_append] at h1
  have h2 : s.out = [] := List.length_eq_zero_iff.1 (by omega)
  have h3 : s.held.getD [] = [] := List.length_eq_zero_iff.1 (by omega)
  have h4 : s.outbuf = m.text := by
    have := hg
    simp only [got, h2, h3, List.append_nil] at this
    exact this
  refine ⟨pre ++ [m], l, by rw [h.mails, List.append_assoc]; rfl, ⟨?_, ?_, h.past.held⟩, ?_, ?_, hc, ?_, ?_⟩
  · intro a ha
    rcases List.mem_append.1 ha with ha | ha
    · exact h.past.fresh a ha
    · rw [List.mem_singleton] at ha; subst ha; exact h.unknown
  · show (s.new <|> some t) = _
    rw [h.past.new, ht]
    cases pre with
    | nil => rfl
    | cons a pre => rfl
  · show s.ops ++ _ = _
    rw [ho, ht, h4]
    simp only [flat, List.flatMap_append, List.flatMap_cons, List.flatMap_nil, List.append_nil, List.append_assoc, List.cons_append, List.nil_append]
  · exact h.flow.cmd
  · simp only [got, h2, h3, List.append_nil]
  · exact h.flow.sync

theorem inv_dbfail (hi : Inv J s) (hm : s.main.stores = true) : Inv J { s with main := .ret none, faults := s.faults + 1 } := by
  unfold Inv at hi
  refine ⟨?_, .inl (Nat.succ_pos _)⟩
  show s.ops <+: _
  split at hi
  · next h => rw [h] at hm; cases hm
  · obtain ⟨pre, m, l, b, h, _, ho, _⟩ := hi
    rw [ho]; exact flat_prefix h.mails h.past.fresh
  · next h => rw [h] at hm; cases hm
  · next h => rw [h] at hm; cases hm
  · next h => rw [h] at hm; cases hm
  · next h => rw [h] at hm; cases hm
  · obtain ⟨pre, m, l, h, _, ho, _⟩ := hi
    rw [ho]; exact flat_add_prefix h.mails h.past.fresh h.unknown
  · obtain ⟨pre, m, l, h1, h2, _, _, _, h6, _⟩ := hi
    rw [h6]; exact flat_prefix h1 h2
  all_goals (rename_i h; rw [h] at hm; cases hm)

theorem inv_stop {n : Nat} {t : Int} (hi : Inv J s) (hm : s.main = .stop n t) : Inv J { s with main := .wait t, coll := .need n } := by
  unfold Inv at hi
  rw [hm] at hi
  obtain ⟨pre, m, l, h, hg, ho, hc, hn, ht⟩ := hi
  exact ⟨pre, m, l, ⟨h.mails, ⟨h.past.fresh, h.past.new, h.past.held⟩, h.unknown, ⟨h.flow.sync, h.flow.early, h.flow.text, h.flow.full, h.flow.cmd⟩⟩, hg, ho,
    .inl (by rw [hn]), ht⟩

theorem inv_done {t : Int} (hi : Inv J s) (hm : s.main = .wait t) (hd : s.coll = .done) : Inv J { s with main := .store t, coll := .off } := by
  unfold Inv at hi
  rw [hm] at hi
  obtain ⟨pre, m, l, h, hg, ho, hc, ht⟩ := hi
  refine ⟨pre, m, l, ⟨h.mails, ⟨h.past.fresh, h.past.new, h.past.held⟩, h.unknown, ⟨h.flow.sync, h.flow.early, h.flow.text, h.flow.full, h.flow.cmd⟩⟩, hg, ho, rfl, ?_, ht⟩
  rcases hc with hc | ⟨_, hc⟩
  · rw [hd] at hc; cases hc
  · exact hc

theorem inv_waited {b : Bool} (hi : Inv J s) (hm : s.main = .finish) (hp : s.proto = .exited b) :
    Inv J { s with main := .ret (if b then some (s.new.getD 0) else none) } := by
  unfold Inv at hi
  rw [hm] at hi
  obtain ⟨h1, h2, h3⟩ := hi
  cases b with
  | true => exact .inl ⟨h1, h2⟩
  | false =>
    refine ⟨?_, ?_⟩
    · show s.ops <+: _
      rw [h1]; exact List.prefix_refl _
    · left
      show 0 < s.faults
      rcases h3 with ⟨c, h, h'⟩ | ⟨_, m, l, h | h⟩ | ⟨h, _⟩
      · rw [hp] at h; injection h with h; subst h
        rcases h' with h' | h'
        · cases h'
        · exact h'
      all_goals (rw [hp] at h; cases h)

/-! ### all steps -/

theorem inv_start (J : Job) : Inv J (start J) := by
  refine ⟨[], J.mails, rfl, ⟨fun _ h => (by cases h), rfl, fun h => (by cases h)⟩, rfl, rfl, rfl, rfl, ⟨stream J J.mails, rfl, fun _ => ⟨rfl, rfl⟩, fun _ h => (by cases h), ?_⟩⟩
  intro m r h
  rw [h]
  have := stream_ge (J := J) m r
  simp only [start, List.length_nil]
  omega

theorem inv_said {k : Cont} (hi : Inv J s) (hp : s.proto = .say [] k) : Inv J { s with proto := k.go J } := by
  refine inv_silent hi (by rw [hp]; rfl) ?_ ?_ ?_ ?_ ?_
  · rw [hp]
    cases k with
    | await m l => rfl
    | time m l => rfl
    | head l => rfl
    | exit => rfl
  · rw [hp]
    cases k with
    | await m l => rfl
    | time m l => rfl
    | head l => rfl
    | exit => rfl
  · rw [hp]
    cases k with
    | await m l => rfl
    | time m l => rfl
    | head l => rfl
    | exit => rfl
  · intro b hb
    cases k with
    | exit => injection hb with hb; exact hb.symm
    | _ => cases hb
  · rintro (⟨c, h, _⟩ | ⟨hc, m, l, h | h⟩ | ⟨h, hf⟩)
    · rw [hp] at h; cases h
    · rw [hp] at h; cases h
    · rw [hp] at h; injection h with _ h; subst h
      exact .inr (.inl ⟨hc, m, l, .inl rfl⟩)
    · rw [hp] at h; injection h with _ h; subst h
      exact .inl ⟨J.fail.isNone, rfl, .inl (by rw [hf]; rfl)⟩

theorem step_inv (hj : ∀ m ∈ J.mails, Sent m) {s' : State} (hi : Inv J s) (h : Step J s s') : Inv J s' := by
  cases h with
  | announce m l hp =>
    refine inv_silent hi (by rw [hp]; rfl) (by rw [hp]; rfl) (by rw [hp]; rfl) (by rw [hp]; rfl) (fun b hb => by cases hb) ?_
    rintro (⟨c, h, _⟩ | ⟨_, m, l, h | h⟩ | ⟨h, _⟩) <;> rw [hp] at h <;> cases h
  | last hp =>
    refine inv_silent hi (by rw [hp]; rfl) (by rw [hp]; simp only [Proto.fut, stream, Cont.fut, List.append_nil]) (by rw [hp]; rfl) (by rw [hp]; rfl) (fun b hb => by cases hb) ?_
    rintro (⟨c, h, _⟩ | ⟨_, m, l, h | h⟩ | ⟨h, _⟩) <;> rw [hp] at h <;> cases h
  | say a b k hp ha _ => exact inv_say hi hp ha
  | said k hp => exact inv_said hi hp
  | next m l q hp hc => exact inv_next hi hp hc
  | quit m l q hp hc => exact inv_quit hi hp hc
  | text a b m l hp ha _ => exact inv_text hi hp ha
  | texted m l hp =>
    refine inv_silent hi (by rw [hp]; rfl) (by rw [hp]; rfl) (by rw [hp]; rfl) (by rw [hp]; rfl) (fun b hb => by cases hb) ?_
    rintro (⟨c, h, _⟩ | ⟨_, m, l, h | h⟩ | ⟨h, _⟩) <;> rw [hp] at h <;> cases h
  | kill _ => exact inv_kill hi
  | read a b h1 h2 h3 _ =>
    refine inv_pipe (ob := s.outbuf) hi ?_ (fun e => h3 (by injection e)) (Nat.le_refl _)
    simp only [got, h1, h2, Option.getD_some, Option.getD_none, List.nil_append]
  | collect a h1 _ =>
    refine inv_pipe (o := s.out) hi ?_ (fun e => by cases e) (by rw [List.length_append]; omega)
    simp only [got, h1, Option.getD_some, Option.getD_none, List.nil_append, List.append_assoc]
  | collectRest a n h1 _ _ =>
    refine inv_pipe (o := s.out) hi ?_ (fun e => by cases e) (by rw [List.length_append]; omega)
    simp only [got, h1, Option.getD_some, Option.getD_none, List.nil_append, List.append_assoc]
  | enough n hc hn => exact inv_enough hi hc hn
  | fill a b _ _ hst ha => exact inv_fill hi hst ha
  | eof b hr h1 h2 h3 => exact inv_eof hi hr h1 h2 h3
  | hearId a b hm hb ha => exact inv_hearId hj hi hm hb ha
  | hearLen a b hm hb ha => exact inv_hearLen hi hm hb ha
  | hearTime a b n hm hb ha => exact inv_hearTime hj hi hm hb ha
  | remove x hm => exact inv_remove hi hm
  | add x hm => exact inv_add hi hm
  | store t hm => exact inv_store hi hm
  | dbfail hm => exact inv_dbfail hi hm
  | stop n t hm _ => exact inv_stop hi hm
  | done t hm hd => exact inv_done hi hm hd
  | waited b hm hp => exact inv_waited hi hm hp

theorem run_inv (hj : ∀ m ∈ J.mails, Sent m) {n : Nat} (h : Run J n s) : Inv J s := by
  induction h with
  | start => exact inv_start J
  | step n s s' _ hs ih => exact step_inv hj ih hs

end Verif.Ctrl.Transfer

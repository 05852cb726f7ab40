/-
The invariant of the executions of the transfer.
-/
import Verif.Ctrl.TransferProps

namespace Verif.Ctrl.Transfer
open Verif.Sql Verif.Msgdb

variable {J : Job} {s : State}

/-- What the server delivers: IDs and texts are encoded in base64, times are of the type `int64`. -/
def Sent (m : Mail) : Prop := (∃ raw, m.id = Base64.encode raw) ∧ (∃ msg, m.text = Base64.encode msg) ∧ -2 ^ 63 ≤ m.time ∧ m.time < 2 ^ 63

/-! ### streams -/

/-- All status output from the head of the loop on, if every message is asked for. -/
def stream (J : Job) : List Mail → Bytes
  | [] => lastLine J.fail
  | m :: l => idLine m ++ (lenLine m ++ (timeLine m ++ stream J l))

/-- All status output after the command NEXT. -/
def body (J : Job) (m : Mail) (l : List Mail) : Bytes := lenLine m ++ (timeLine m ++ stream J l)

/-- The output to come. -/
def Cont.fut (J : Job) : Cont → Bytes
  | .await m l => body J m l
  | .time m l => timeLine m ++ stream J l
  | .head l => stream J l
  | .exit => []

def Proto.fut (J : Job) : Proto → Bytes
  | .head l => stream J l
  | .say r k => r ++ k.fut J
  | .await m l => body J m l
  | .text _ m l => body J m l
  | .exited _ => []

/-- The messages whose command is still to come. -/
def Cont.lst : Cont → List Mail
  | .await m l => m :: l
  | .time _ l => l
  | .head l => l
  | .exit => []

def Proto.lst : Proto → List Mail
  | .head l => l
  | .say _ k => k.lst
  | .await m l => m :: l
  | .text _ _ l => l
  | .exited _ => []

/-- The part of the present text still to be written. -/
def Proto.rest : Proto → Bytes
  | .text r _ _ => r
  | _ => []

def Proto.alive : Proto → Bool
  | .exited _ => false
  | _ => true

/-- The status output not yet used is `want`, or begins it if `muteproto` was killed. -/
def Sync (J : Job) (s : State) (want : Bytes) (l : List Mail) : Prop :=
  ∃ f, s.buf ++ (s.stat ++ f) = want ∧ (s.proto.alive = true → f = s.proto.fut J ∧ s.proto.lst = l) ∧
    (∀ b, s.proto = .exited b → 0 < s.faults ∨ (f = [] ∧ b = J.fail.isNone ∧ l = [])) ∧
    (∀ m r, l = m :: r → s.buf.length + s.stat.length + (body J m r).length ≤ want.length)

/-- The bytes of the present text that have left `muteproto`. -/
def got (s : State) : Bytes := s.outbuf ++ (s.held.getD [] ++ s.out)

def flat (J : Job) (l : List Mail) : List Op := l.flatMap fun m => [.addCache J.my J.c m.id, .addInQueue J.my J.c m.time m.text]

structure Past (J : Job) (s : State) (pre : List Mail) : Prop where
  fresh : ∀ m ∈ pre, m.id ∉ J.cache
  new : s.new = pre.head?.map (·.time)
  held : s.held ≠ some []

structure Idle (J : Job) (s : State) (pre l : List Mail) : Prop where
  mails : J.mails = pre ++ l
  past : Past J s pre
  ops : s.ops = flat J pre
  cmd : s.cmd = []
  coll : s.coll = .off
  got : got s = []
  sync : Sync J s (stream J l) l

/-- The text on its way: the command NEXT is not yet read (`b`), or a part of the text has left. -/
structure Flow (J : Job) (s : State) (m : Mail) (l : List Mail) (b : Bool) (want : Bytes) : Prop where
  sync : Sync J s want (if b then m :: l else l)
  early : b = true → got s = [] ∧ s.buf = [] ∧ s.stat = [] ∧ want = body J m l
  text : b = false → ∃ g, got s ++ g = m.text ∧ (s.proto.alive = true → g = s.proto.rest)
  full : (s.buf = [] ∧ s.stat = []) ∨ got s = m.text
  cmd : s.cmd = if b then [.next] else []

structure Body (J : Job) (s : State) (pre : List Mail) (m : Mail) (l : List Mail) (b : Bool) (want : Bytes) : Prop where
  mails : J.mails = pre ++ m :: l
  past : Past J s pre
  unknown : m.id ∉ J.cache
  flow : Flow J s m l b want

/-- `muteproto` is about to leave its loop. -/
def Leaving (J : Job) (s : State) : Prop :=
  (∃ b, s.proto = .exited b ∧ (b = true ∨ 0 < s.faults)) ∨
  (s.cmd = [.quit] ∧ ∃ m l, s.proto = .await m l ∨ s.proto = .say [] (.await m l)) ∨
  (s.proto = .say [] .exit ∧ J.fail = none)

/-- The time of the newest message, if it is new. -/
def lastTime (J : Job) : Int :=
  match J.mails with
  | [] => 0
  | m :: _ => if m.id ∈ J.cache then 0 else m.time

/-- What can make a run fail without a fault. -/
def Hopeless (J : Job) : Prop := J.fail ≠ none ∨ ∃ m ∈ J.mails, m.id = [] ∨ 2 ^ 64 ≤ m.text.length

/-- The error of `muteproto` looks as if the account had no messages. -/
def Nothing (J : Job) : Prop := ∃ e, J.fail = some e ∧ Transfer.hearId (txtError ++ e.takeWhile (· != 10)) = .nothing

def Inv (J : Job) (s : State) : Prop :=
  match s.main with
  | .id => ∃ pre l, Idle J s pre l
  | .add x => ∃ pre m l b, Body J s pre m l b (body J m l) ∧ x = m.id ∧ s.ops = flat J pre ∧ s.coll = .off
  | .len => ∃ pre m l b, Body J s pre m l b (body J m l) ∧ s.ops = flat J pre ++ [.addCache J.my J.c m.id] ∧ s.coll = .select
  | .time n => ∃ pre m l, Body J s pre m l false (timeLine m ++ stream J l) ∧ got s = m.text ∧
      s.ops = flat J pre ++ [.addCache J.my J.c m.id] ∧ s.coll = .select ∧ n = m.text.length
  | .stop n t => ∃ pre m l, Body J s pre m l false (stream J l) ∧ got s = m.text ∧
      s.ops = flat J pre ++ [.addCache J.my J.c m.id] ∧ s.coll = .select ∧ n = m.text.length ∧ t = m.time
  | .wait t => ∃ pre m l, Body J s pre m l false (stream J l) ∧ got s = m.text ∧
      s.ops = flat J pre ++ [.addCache J.my J.c m.id] ∧
      (s.coll = .need m.text.length ∨ (s.coll = .done ∧ m.text.length ≤ s.outbuf.length)) ∧ t = m.time
  | .store t => ∃ pre m l, Body J s pre m l false (stream J l) ∧ got s = m.text ∧
      s.ops = flat J pre ++ [.addCache J.my J.c m.id] ∧ s.coll = .off ∧ m.text.length ≤ s.outbuf.length ∧ t = m.time
  | .quit x => ∃ pre m l, J.mails = pre ++ m :: l ∧ (∀ a ∈ pre, a.id ∉ J.cache) ∧ s.new = pre.head?.map (·.time) ∧
      x = m.id ∧ m.id ∈ J.cache ∧ s.ops = flat J pre ∧ Leaving J s
  | .finish => s.ops = fetchOps J.my J.c J.cache J.mails ∧ s.new.getD 0 = lastTime J ∧ Leaving J s
  | .ret none => s.ops <+: fetchOps J.my J.c J.cache J.mails ∧ (0 < s.faults ∨ Hopeless J)
  | .ret (some t) => (s.ops = fetchOps J.my J.c J.cache J.mails ∧ t = lastTime J) ∨
      (t = 0 ∧ s.ops <+: fetchOps J.my J.c J.cache J.mails ∧ Nothing J)

/-! ### operations -/

theorem fetchOps_append (J : Job) (pre l : List Mail) (h : ∀ m ∈ pre, m.id ∉ J.cache) :
    fetchOps J.my J.c J.cache (pre ++ l) = flat J pre ++ fetchOps J.my J.c J.cache l := by
  induction pre with
  | nil => rfl
  | cons a pre ih =>
    simp only [List.cons_append, fetchOps, if_neg (h a (List.mem_cons_self ..)), ih fun m hm => h m (List.mem_cons_of_mem _ hm), flat, List.flatMap_cons,
      List.nil_append]

theorem flat_prefix {pre l : List Mail} (hm : J.mails = pre ++ l) (h : ∀ m ∈ pre, m.id ∉ J.cache) : flat J pre <+: fetchOps J.my J.c J.cache J.mails := by
  rw [hm, fetchOps_append J pre l h]
  exact List.prefix_append _ _

theorem flat_add_prefix {pre l : List Mail} {m : Mail} (hm : J.mails = pre ++ m :: l) (h : ∀ m ∈ pre, m.id ∉ J.cache) (hu : m.id ∉ J.cache) :
    flat J pre ++ [.addCache J.my J.c m.id] <+: fetchOps J.my J.c J.cache J.mails := by
  rw [hm, fetchOps_append J pre _ h, fetchOps, if_neg hu]
  exact ⟨.addInQueue J.my J.c m.time m.text :: fetchOps J.my J.c J.cache l, by simp only [List.append_assoc, List.cons_append, List.nil_append]⟩

theorem lastTime_eq {pre l : List Mail} (hm : J.mails = pre ++ l) (h : ∀ m ∈ pre, m.id ∉ J.cache) (hl : l = [] ∨ ∃ m r, l = m :: r ∧ m.id ∈ J.cache) :
    (pre.head?.map (·.time)).getD 0 = lastTime J := by
  unfold lastTime
  rw [hm]
  cases pre with
  | nil =>
    rcases hl with rfl | ⟨m, r, rfl, hk⟩
    · rfl
    · simp only [List.nil_append, if_pos hk]; rfl
  | cons a pre => simp only [List.cons_append, if_neg (h a (List.mem_cons_self ..))]; rfl

/-! ### steps of `muteproto` -/

/-- Steps that change only what `muteproto` does and the status pipe. -/
theorem inv_proto {p : Proto} {st : Bytes} {ft : Nat} (hi : Inv J s)
    (hft : 0 < s.faults → 0 < ft)
    (hs : ∀ want l, Sync J s want l → Sync J { s with proto := p, stat := st, faults := ft } want l)
    (hf : ∀ m l b want, Flow J s m l b want → Flow J { s with proto := p, stat := st, faults := ft } m l b want)
    (hl : Leaving J s → Leaving J { s with proto := p, stat := st, faults := ft }) :
    Inv J { s with proto := p, stat := st, faults := ft } := by
  unfold Inv at hi ⊢
  have hb : ∀ pre m l b want, Body J s pre m l b want → Body J { s with proto := p, stat := st, faults := ft } pre m l b want :=
    fun pre m l b want h => ⟨h.mails, ⟨h.past.fresh, h.past.new, h.past.held⟩, h.unknown, hf _ _ _ _ h.flow⟩
  simp only []
  split at hi
  · obtain ⟨pre, l, h⟩ := hi
    exact ⟨pre, l, h.mails, ⟨h.past.fresh, h.past.new, h.past.held⟩, h.ops, h.cmd, h.coll, h.got, hs _ _ h.sync⟩
  · obtain ⟨pre, m, l, b, h, r⟩ := hi; exact ⟨pre, m, l, b, hb _ _ _ _ _ h, r⟩
  · obtain ⟨pre, m, l, b, h, r⟩ := hi; exact ⟨pre, m, l, b, hb _ _ _ _ _ h, r⟩
  · obtain ⟨pre, m, l, h, r⟩ := hi; exact ⟨pre, m, l, hb _ _ _ _ _ h, r⟩
  · obtain ⟨pre, m, l, h, r⟩ := hi; exact ⟨pre, m, l, hb _ _ _ _ _ h, r⟩
  · obtain ⟨pre, m, l, h, r⟩ := hi; exact ⟨pre, m, l, hb _ _ _ _ _ h, r⟩
  · obtain ⟨pre, m, l, h, r⟩ := hi; exact ⟨pre, m, l, hb _ _ _ _ _ h, r⟩
  · obtain ⟨pre, m, l, h1, h2, h3, h4, h5, h6, h7⟩ := hi; exact ⟨pre, m, l, h1, h2, h3, h4, h5, h6, hl h7⟩
  · exact ⟨hi.1, hi.2.1, hl hi.2.2⟩
  · exact ⟨hi.1, hi.2.imp_left hft⟩
  · exact hi

theorem alive_or (p : Proto) : p.alive = true ∨ ∃ b, p = .exited b := by
  cases p <;> first | exact .inl rfl | exact .inr ⟨_, rfl⟩

/-- The silent steps of `muteproto`: it goes on to a state with the same output to come. -/
theorem inv_silent {p : Proto} (hi : Inv J s) (ha : s.proto.alive = true) (hf : s.proto.fut J = p.fut J) (hl : s.proto.lst = p.lst)
    (hr : s.proto.rest = p.rest) (hx : ∀ b, p = .exited b → b = J.fail.isNone)
    (hlv : Leaving J s → Leaving J { s with proto := p }) : Inv J { s with proto := p } := by
  have hs : ∀ want l, Sync J s want l → Sync J { s with proto := p } want l := by
    rintro want l ⟨f, h1, h2, h3, h4⟩
    obtain ⟨e1, e2⟩ := h2 ha
    refine ⟨f, h1, fun hp => ⟨by rw [e1]; exact hf, by rw [← e2]; exact hl.symm⟩, fun b hb => .inr ⟨?_, hx b hb, ?_⟩, h4⟩
    · rw [e1, hf]
      show p.fut J = []
      have hb' : p = .exited b := hb
      rw [hb']; rfl
    · rw [← e2, hl]
      have hb' : p = .exited b := hb
      rw [hb']; rfl
  refine inv_proto (st := s.stat) (ft := s.faults) hi id hs (fun m l b want h => ⟨hs _ _ h.sync, h.early, ?_, h.full, h.cmd⟩) hlv
  intro hb
  obtain ⟨g, e1, e2⟩ := h.text hb
  exact ⟨g, e1, fun hp => by rw [e2 ha, hr]⟩

theorem line_pos (m : Mail) : 0 < (idLine m).length ∧ 0 < (lenLine m).length ∧ 0 < (timeLine m).length := by
  simp only [idLine, lenLine, timeLine, line, List.length_append, List.length_cons]
  omega

theorem stream_ge (m : Mail) (r : List Mail) : (body J m r).length ≤ (stream J (m :: r)).length := by
  simp only [stream, body, List.length_append]; omega

theorem cont_ge {k : Cont} {m : Mail} {r : List Mail} (hl : k.lst = m :: r) : (body J m r).length ≤ (k.fut J).length := by
  cases k with
  | await m' l' => simp only [Cont.lst, List.cons.injEq] at hl; rw [← hl.1, ← hl.2]; exact Nat.le_refl _
  | time m' l' =>
    simp only [Cont.lst] at hl; subst hl
    have := stream_ge (J := J) m r
    simp only [Cont.fut, List.length_append]; omega
  | head l' => simp only [Cont.lst] at hl; subst hl; exact stream_ge m r
  | exit => cases hl

theorem fut_ge {p : Proto} {m : Mail} {r : List Mail} (ha : p.alive = true) (hl : p.lst = m :: r) : (body J m r).length ≤ (p.fut J).length := by
  cases p with
  | head l => simp only [Proto.lst] at hl; subst hl; exact stream_ge m r
  | say r' k => have := cont_ge (J := J) hl; simp only [Proto.fut, List.length_append]; omega
  | await m' l' => simp only [Proto.lst, List.cons.injEq] at hl; rw [← hl.1, ← hl.2]; exact Nat.le_refl _
  | text r' m' l' =>
    simp only [Proto.lst] at hl; subst hl
    have := stream_ge (J := J) m r
    simp only [Proto.fut, body, List.length_append] at this ⊢; omega
  | exited b => cases ha

/-- As long as the command NEXT is not read, there is nothing to write. -/
theorem early_no_say {a b : Bytes} {k : Cont} {m : Mail} {l : List Mail} {want : Bytes} (h : Flow J s m l true want) (hp : s.proto = .say (a ++ b) k)
    (ha : a ≠ []) : False := by
  have hal : s.proto.alive = true := by rw [hp]; rfl
  obtain ⟨h1, h2, h3, h4⟩ := h.early rfl
  obtain ⟨f, e1, e2, _⟩ := h.sync
  obtain ⟨e3, e4⟩ := e2 hal
  simp only [if_true] at e4
  rw [h2, h3, e3, h4, hp] at e1
  rw [hp] at e4
  simp only [Proto.fut, List.nil_append, Proto.lst] at e1 e4
  have hla : 0 < a.length := List.length_pos_iff.2 ha
  cases k with
  | await m' l' =>
    simp only [Cont.lst, List.cons.injEq] at e4
    rw [e4.1, e4.2] at e1
    have := congrArg List.length e1
    simp only [Cont.fut, List.length_append] at this
    omega
  | time m' l' =>
    simp only [Cont.lst] at e4
    rw [e4] at e1
    have := congrArg List.length e1
    have h5 := line_pos m
    simp only [Cont.fut, List.length_append, stream, body] at this
    omega
  | head l' =>
    simp only [Cont.lst] at e4
    rw [e4] at e1
    have := congrArg List.length e1
    simp only [Cont.fut, List.length_append, stream, body] at this
    omega
  | exit => simp only [Cont.lst] at e4; cases e4

/-- A part of a line is written. -/
theorem inv_say {a b : Bytes} {k : Cont} (hi : Inv J s) (hp : s.proto = .say (a ++ b) k) (ha : a ≠ []) :
    Inv J { s with proto := .say b k, stat := s.stat ++ a } := by
  have hal : s.proto.alive = true := by rw [hp]; rfl
  have hs : ∀ want l, Sync J s want l → Sync J { s with proto := .say b k, stat := s.stat ++ a } want l := by
    rintro want l ⟨f, h1, h2, h3, h4⟩
    obtain ⟨e1, e2⟩ := h2 hal
    rw [hp] at e1 e2
    have h5 : s.buf ++ (s.stat ++ a ++ (b ++ k.fut J)) = want := by
      rw [← h1, e1]
      simp only [Proto.fut, List.append_assoc]
    refine ⟨b ++ k.fut J, h5, fun _ => ⟨rfl, e2⟩, fun c hc => (by cases hc), ?_⟩
    intro m r hl
    have h6 := fut_ge (J := J) (p := .say b k) rfl (e2.trans hl)
    rw [← h5]
    simp only [Proto.fut, List.length_append] at h6 ⊢
    omega
  refine inv_proto (ft := s.faults) hi id hs (fun m l c want h => ⟨hs _ _ h.sync, ?_, ?_, ?_, h.cmd⟩) ?_
  · rintro rfl
    exact (early_no_say h hp ha).elim
  · intro hc
    obtain ⟨g, e1, e2⟩ := h.text hc
    have := e2 hal
    rw [hp] at this
    exact ⟨g, e1, fun _ => this⟩
  · right
    cases c with
    | true => exact (early_no_say h hp ha).elim
    | false =>
      obtain ⟨g, e1, e2⟩ := h.text rfl
      have := e2 hal
      rw [hp] at this
      have hg : g = [] := this
      rw [hg, List.append_nil] at e1
      exact e1
  · rintro (⟨c, h, _⟩ | ⟨_, m, l, h | h⟩ | ⟨h, _⟩)
    · rw [hp] at h; cases h
    · rw [hp] at h; cases h
    · rw [hp] at h; injection h with h1 _
      exact absurd (List.append_eq_nil_iff.1 h1).1 ha
    · rw [hp] at h; injection h with h1 _
      exact absurd (List.append_eq_nil_iff.1 h1).1 ha

theorem inv_kill (hi : Inv J s) : Inv J { s with proto := .exited false, faults := s.faults + 1 } := by
  have hs : ∀ want l, Sync J s want l → Sync J { s with proto := .exited false, faults := s.faults + 1 } want l := by
    rintro want l ⟨f, h1, h2, h3, h4⟩
    exact ⟨f, h1, fun h => Bool.noConfusion h, fun _ _ => .inl (Nat.succ_pos _), h4⟩
  refine inv_proto (st := s.stat) hi (fun _ => Nat.succ_pos _) hs (fun m l b want h => ⟨hs _ _ h.sync, h.early, ?_, h.full, h.cmd⟩) ?_
  · intro hb
    obtain ⟨g, e1, e2⟩ := h.text hb
    exact ⟨g, e1, fun h => Bool.noConfusion h⟩
  · exact fun _ => .inl ⟨false, rfl, .inr (Nat.succ_pos _)⟩

/-- While `muteproto` writes a text, there is more to come than the stream from the next head on. -/
theorem not_text {r : Bytes} {m : Mail} {l l' : List Mail} {want : Bytes} (h : Sync J s want l) (hw : want.length ≤ (stream J l).length)
    (hp : s.proto = .text r m l') : False := by
  obtain ⟨f, h1, h2, _⟩ := h
  obtain ⟨e1, e2⟩ := h2 (by rw [hp]; rfl)
  rw [hp] at e1 e2
  simp only [Proto.lst] at e2
  subst e2
  have h5 := line_pos m
  have := congrArg List.length h1
  rw [e1] at this
  simp only [Proto.fut, body, List.length_append] at this
  omega

theorem inv_text {a b : Bytes} {m : Mail} {l : List Mail} (hi : Inv J s) (hp : s.proto = .text (a ++ b) m l) (ha : a ≠ []) :
    Inv J { s with proto := .text b m l, out := s.out ++ a } := by
  have hal : s.proto.alive = true := by rw [hp]; rfl
  have hs : ∀ want l', Sync J s want l' → Sync J { s with proto := .text b m l, out := s.out ++ a } want l' := by
    rintro want l' ⟨f, h1, h2, h3, h4⟩
    obtain ⟨e1, e2⟩ := h2 hal
    rw [hp] at e1 e2
    exact ⟨f, h1, fun _ => ⟨e1, e2⟩, fun c hc => (by cases hc), h4⟩
  have hg : got { s with proto := .text b m l, out := s.out ++ a } = got s ++ a := by simp only [got, List.append_assoc]
  have hlv : ¬ Leaving J s := by
    rintro (⟨c, h, _⟩ | ⟨_, m, l, h | h⟩ | ⟨h, _⟩) <;> rw [hp] at h <;> cases h
  have hfull : ∀ m' l' want, Flow J s m' l' false want → got s = m'.text → False := by
    intro m' l' want h e
    obtain ⟨g, e1, e2⟩ := h.text rfl
    have := e2 hal
    rw [hp] at this
    simp only [Proto.rest] at this
    have h6 := congrArg List.length e1
    rw [e, this] at h6
    have hla : 0 < a.length := List.length_pos_iff.2 ha
    simp only [List.length_append] at h6
    omega
  have hb : ∀ pre m' l' c, Body J s pre m' l' c (body J m' l') → Body J { s with proto := .text b m l, out := s.out ++ a } pre m' l' c (body J m' l') := by
    intro pre m' l' c h
    cases c with
    | true =>
      exfalso
      refine not_text h.flow.sync ?_ hp
      simp only [if_true]
      exact stream_ge m' l'
    | false =>
      obtain ⟨g, e1, e2⟩ := h.flow.text rfl
      have e3 := e2 hal
      rw [hp] at e3
      refine ⟨h.mails, ⟨h.past.fresh, h.past.new, h.past.held⟩, h.unknown, hs _ _ h.flow.sync, fun h => (Bool.noConfusion h), fun _ => ⟨b, ?_, fun _ => rfl⟩,
        ?_, h.flow.cmd⟩
      · rw [hg, ← e1, e3, Proto.rest, List.append_assoc]
      · rcases h.flow.full with h' | h'
        · exact .inl h'
        · exact (hfull _ _ _ h.flow h').elim
  unfold Inv at hi ⊢
  simp only []
  split at hi
  · obtain ⟨pre, l', h⟩ := hi
    exact (not_text h.sync (Nat.le_refl _) hp).elim
  · obtain ⟨pre, m, l, b, h, r⟩ := hi; exact ⟨pre, m, l, b, hb _ _ _ _ h, r⟩
  · obtain ⟨pre, m, l, b, h, r⟩ := hi; exact ⟨pre, m, l, b, hb _ _ _ _ h, r⟩
  · obtain ⟨pre, m, l, h, e, r⟩ := hi; exact (hfull _ _ _ h.flow e).elim
  · obtain ⟨pre, m, l, h, e, r⟩ := hi; exact (hfull _ _ _ h.flow e).elim
  · obtain ⟨pre, m, l, h, e, r⟩ := hi; exact (hfull _ _ _ h.flow e).elim
  · obtain ⟨pre, m, l, h, e, r⟩ := hi; exact (hfull _ _ _ h.flow e).elim
  · obtain ⟨pre, m, l, h1, h2, h3, h4, h5, h6, h7⟩ := hi; exact (hlv h7).elim
  · exact (hlv hi.2.2).elim
  · exact hi
  · exact hi

theorem inv_next {m : Mail} {l : List Mail} {q : List Cmd} (hi : Inv J s) (hp : s.proto = .await m l) (hc : s.cmd = .next :: q) :
    Inv J { s with proto := .text m.text m l, cmd := q } := by
  have hal : s.proto.alive = true := by rw [hp]; rfl
  have hlv : ¬ Leaving J s := by
    rintro (⟨c, h, _⟩ | ⟨h, _⟩ | ⟨h, _⟩)
    · rw [hp] at h; cases h
    · rw [hc] at h; cases h
    · rw [hp] at h; cases h
  have hfalse : ∀ m' l' want, Flow J s m' l' false want → False := by
    intro m' l' want h
    have := h.cmd
    rw [hc] at this
    simp only [Bool.false_eq_true, if_false] at this
    cases this
  have hb : ∀ pre m' l' c, Body J s pre m' l' c (body J m' l') → Body J { s with proto := .text m.text m l, cmd := q } pre m' l' false (body J m' l') := by
    intro pre m' l' c h
    cases c with
    | false => exact (hfalse _ _ _ h.flow).elim
    | true =>
      obtain ⟨h1, h2, h3, _⟩ := h.flow.early rfl
      have h4 := h.flow.cmd
      rw [hc] at h4
      simp only [if_true, List.cons.injEq, true_and] at h4
      obtain ⟨f, e1, e2, e3, e4⟩ := h.flow.sync
      obtain ⟨e5, e6⟩ := e2 hal
      rw [hp] at e5 e6
      simp only [Proto.lst, if_true, List.cons.injEq] at e6
      obtain ⟨rfl, rfl⟩ := e6
      refine ⟨h.mails, ⟨h.past.fresh, h.past.new, h.past.held⟩, h.unknown, ⟨f, e1, fun _ => ⟨e5, rfl⟩, fun c hc => (by cases hc), ?_⟩, fun h => (Bool.noConfusion h),
        fun _ => ⟨m.text, ?_, fun _ => rfl⟩, .inl ⟨h2, h3⟩, h4⟩
      · intro m' r hl
        simp only [Bool.false_eq_true, if_false] at hl
        subst hl
        have h7 := stream_ge (J := J) m' r
        simp only [h2, h3, List.length_nil, Nat.zero_add]
        rw [show body J m (m' :: r) = lenLine m ++ (timeLine m ++ stream J (m' :: r)) from rfl]
        simp only [List.length_append]
        omega
      · have : got { s with proto := .text m.text m l, cmd := q } = got s := rfl
        rw [this, h1, List.nil_append]
  unfold Inv at hi ⊢
  simp only []
  split at hi
  · obtain ⟨pre, l', h⟩ := hi
    have := h.cmd
    rw [hc] at this
    cases this
  · obtain ⟨pre, m, l, b, h, r⟩ := hi; exact ⟨pre, m, l, false, hb _ _ _ _ h, r⟩
  · obtain ⟨pre, m, l, b, h, r⟩ := hi; exact ⟨pre, m, l, false, hb _ _ _ _ h, r⟩
  · obtain ⟨pre, m, l, h, e, r⟩ := hi; exact (hfalse _ _ _ h.flow).elim
  · obtain ⟨pre, m, l, h, e, r⟩ := hi; exact (hfalse _ _ _ h.flow).elim
  · obtain ⟨pre, m, l, h, e, r⟩ := hi; exact (hfalse _ _ _ h.flow).elim
  · obtain ⟨pre, m, l, h, e, r⟩ := hi; exact (hfalse _ _ _ h.flow).elim
  · obtain ⟨pre, m, l, h1, h2, h3, h4, h5, h6, h7⟩ := hi; exact (hlv h7).elim
  · exact (hlv hi.2.2).elim
  · exact hi
  · exact hi

theorem inv_quit {m : Mail} {l : List Mail} {q : List Cmd} (hi : Inv J s) (hp : s.proto = .await m l) (hc : s.cmd = .quit :: q) :
    Inv J { s with proto := .exited true, cmd := q } := by
  have hfalse : ∀ m' l' c want, Flow J s m' l' c want → False := by
    intro m' l' c want h
    have := h.cmd
    rw [hc] at this
    cases c
    · simp only [Bool.false_eq_true, if_false] at this; cases this
    · simp only [if_true] at this; cases this
  have hlv : Leaving J { s with proto := .exited true, cmd := q } := .inl ⟨true, rfl, .inl rfl⟩
  unfold Inv at hi ⊢
  simp only []
  split at hi
  · obtain ⟨pre, l', h⟩ := hi
    have := h.cmd
    rw [hc] at this
    cases this
  · obtain ⟨pre, m, l, b, h, r⟩ := hi; exact (hfalse _ _ _ _ h.flow).elim
  · obtain ⟨pre, m, l, b, h, r⟩ := hi; exact (hfalse _ _ _ _ h.flow).elim
  · obtain ⟨pre, m, l, h, e, r⟩ := hi; exact (hfalse _ _ _ _ h.flow).elim
  · obtain ⟨pre, m, l, h, e, r⟩ := hi; exact (hfalse _ _ _ _ h.flow).elim
  · obtain ⟨pre, m, l, h, e, r⟩ := hi; exact (hfalse _ _ _ _ h.flow).elim
  · obtain ⟨pre, m, l, h, e, r⟩ := hi; exact (hfalse _ _ _ _ h.flow).elim
  · obtain ⟨pre, m, l, h1, h2, h3, h4, h5, h6, h7⟩ := hi; exact ⟨pre, m, l, h1, h2, h3, h4, h5, h6, hlv⟩
  · exact ⟨hi.1, hi.2.1, hlv⟩
  · exact hi
  · exact hi

/-! ### steps of the goroutines that read and collect -/

theorem inv_pipe {hd : Option Bytes} {o ob : Bytes} (hi : Inv J s) (hg : got { s with held := hd, out := o, outbuf := ob } = got s) (hh : hd ≠ some [])
    (hle : s.outbuf.length ≤ ob.length) : Inv J { s with held := hd, out := o, outbuf := ob } := by
  have hs : ∀ want l, Sync J s want l → Sync J { s with held := hd, out := o, outbuf := ob } want l := fun _ _ h => h
  have hb : ∀ pre m l b want, Body J s pre m l b want → Body J { s with held := hd, out := o, outbuf := ob } pre m l b want := by
    intro pre m l b want h
    exact ⟨h.mails, ⟨h.past.fresh, h.past.new, hh⟩, h.unknown, hs _ _ h.flow.sync, fun e => by rw [hg]; exact h.flow.early e,
      fun e => by rw [hg]; exact h.flow.text e, by rw [hg]; exact h.flow.full, h.flow.cmd⟩
  unfold Inv at hi ⊢
  simp only []
  split at hi
  · obtain ⟨pre, l, h⟩ := hi
    exact ⟨pre, l, h.mails, ⟨h.past.fresh, h.past.new, hh⟩, h.ops, h.cmd, h.coll, by rw [hg]; exact h.got, hs _ _ h.sync⟩
  · obtain ⟨pre, m, l, b, h, r⟩ := hi; exact ⟨pre, m, l, b, hb _ _ _ _ _ h, r⟩
  · obtain ⟨pre, m, l, b, h, r⟩ := hi; exact ⟨pre, m, l, b, hb _ _ _ _ _ h, r⟩
  · obtain ⟨pre, m, l, h, e, r⟩ := hi; exact ⟨pre, m, l, hb _ _ _ _ _ h, hg.trans e, r⟩
  · obtain ⟨pre, m, l, h, e, r⟩ := hi; exact ⟨pre, m, l, hb _ _ _ _ _ h, hg.trans e, r⟩
  · obtain ⟨pre, m, l, h, e, e2, e3, e4⟩ := hi
    exact ⟨pre, m, l, hb _ _ _ _ _ h, hg.trans e, e2, e3.imp_right fun x => ⟨x.1, Nat.le_trans x.2 hle⟩, e4⟩
  · obtain ⟨pre, m, l, h, e, e2, e3, e4, e5⟩ := hi
    exact ⟨pre, m, l, hb _ _ _ _ _ h, hg.trans e, e2, e3, Nat.le_trans e4 hle, e5⟩
  · exact hi
  · exact hi
  · exact hi
  · exact hi

theorem inv_enough {n : Nat} (hi : Inv J s) (hc : s.coll = .need n) (hn : n ≤ s.outbuf.length) : Inv J { s with coll := .done } := by
  unfold Inv at hi ⊢
  simp only []
  split at hi
  · obtain ⟨pre, l, h⟩ := hi
    have := h.coll
    rw [hc] at this
    cases this
  · obtain ⟨pre, m, l, b, h, _, _, r⟩ := hi; rw [hc] at r; cases r
  · obtain ⟨pre, m, l, b, h, _, r⟩ := hi; rw [hc] at r; cases r
  · obtain ⟨pre, m, l, h, e, _, r, _⟩ := hi; rw [hc] at r; cases r
  · obtain ⟨pre, m, l, h, e, _, r, _⟩ := hi; rw [hc] at r; cases r
  · obtain ⟨pre, m, l, h, e, e2, e3, e4⟩ := hi
    refine ⟨pre, m, l, ⟨h.mails, ⟨h.past.fresh, h.past.new, h.past.held⟩, h.unknown, ⟨h.flow.sync, h.flow.early, h.flow.text, h.flow.full, h.flow.cmd⟩⟩, e, e2, .inr ⟨trivial, ?_⟩, e4⟩
    rcases e3 with e3 | ⟨e3, _⟩
    · rw [hc] at e3; injection e3 with e3; rw [← e3]; exact hn
    · rw [hc] at e3; cases e3
  · obtain ⟨pre, m, l, h, e, _, r, _⟩ := hi; rw [hc] at r; cases r
  · exact hi
  · exact hi
  · exact hi
  · exact hi

end Verif.Ctrl.Transfer

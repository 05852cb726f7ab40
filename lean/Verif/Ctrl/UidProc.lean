/-
C109: making a user ID, with the command loop of `mutecrypt`.
-/
import Verif.Ctrl.UidProps

namespace Verif.Ctrl.Uid
open Verif.Sql Verif.Msgdb

variable {σ α β : Type} {I : Ids}

/-! ### the process -/

/-- What a command of `mutecrypt` does: it succeeds, it fails with an error text of one or more
lines, or the process dies, after some lines (a panic) or none (it was killed). -/
inductive Did
  | ok
  | failed (first : Bytes) (more : List Bytes)
  | died (lines : List Bytes)
  deriving DecidableEq, Repr

/-- The process `mutecrypt`: whether it runs, whether it ended normally, the lines it wrote and
that were not read yet, and the commands it executed. -/
structure Proc where
  alive : Bool
  exited : Bool
  out : List Bytes
  done : List (Cmd × Did)
  deriving DecidableEq, Repr

/-- The process after its start. -/
def Proc.fresh : Proc := ⟨true, false, [], []⟩

/-- A turn of the loop (cryptengine.go:102-152). Errors of the command line parser, after which
"READY." is missing (cryptengine.go:125-130), do not occur with the commands at hand. -/
def Proc.turn (p : Proc) : Cmd → Did → Proc
  | .quit, _ => ⟨false, true, p.out ++ [quitting], p.done ++ [(.quit, .ok)]⟩
  | c, .ok => { p with out := p.out ++ [ready], done := p.done ++ [(c, .ok)] }
  | c, .failed f m => { p with out := p.out ++ (f :: m) ++ [ready], done := p.done ++ [(c, .failed f m)] }
  | c, .died l => { p with alive := false, out := p.out ++ l, done := p.done ++ [(c, .died l)] }

/-- A world with the process. `run` executes a command. The control engine keeps the reading end of
the command pipe open, so that it can write to a process that died; reading from it then yields the
end of the stream. -/
def withProc (E : Env σ) (run : σ → Cmd → σ × Did) : Env (σ × Proc) where
  domain := E.domain
  sync := fun w d => (((E.sync w.1 d).1, w.2), (E.sync w.1 d).2)
  search := fun w d => (((E.search w.1 d).1, w.2), (E.search w.1 d).2)
  token := fun w u o => (((E.token w.1 u o).1, w.2), (E.token w.1 u o).2)
  key := fun w => (((E.key w.1).1, w.2), (E.key w.1).2)
  secret := fun w => (((E.secret w.1).1, w.2), (E.secret w.1).2)
  default := E.default
  load := fun w u k t => (((E.load w.1 u k t).1, w.2), (E.load w.1 u k t).2)
  address := fun w d s i k v => (((E.address w.1 d s i k v).1, w.2), (E.address w.1 d s i k v).2)
  start := fun w => ((w.1, .fresh), true)
  send := fun w c => if w.2.alive then (((run w.1 c).1, w.2.turn c (run w.1 c).2), true) else (w, true)
  line := fun w => match w.2.out with
    | l :: r => ((w.1, { w.2 with out := r }), .text l)
    | [] => (w, if w.2.alive then .block else .eof)
  owner := fun w => (((E.owner w.1).1, w.2), if w.2.done.any fun x => match x with | (.caps _, .ok) => true | _ => false then (E.owner w.1).2 else none)
  wait := fun w => (w, w.2.exited)
  unlock := fun w t => (E.unlock w.1 t, w.2)
  del := fun w t => (E.del w.1 t, w.2)
  deleteKey := fun w i => (((E.deleteKey w.1 i).1, w.2), (E.deleteKey w.1 i).2)
  deleteAccount := fun w k v => (((E.deleteAccount w.1 k v).1, w.2), (E.deleteAccount w.1 k v).2)

/-! ### successful executions -/

/-- Whenever `m` succeeds from a state with `P`, the result and the new state have `Q`. -/
def Succ (P : St σ → Prop) (m : M σ α) (Q : α → St σ → Prop) : Prop := ∀ s, P s → ∀ a, (m s).2 = .ok a → Q a (m s).1

theorem Succ.bind {P : St σ → Prop} {m : M σ α} {Q : α → St σ → Prop} {k : α → M σ β} {C : β → St σ → Prop}
    (hm : Succ P m Q) (hk : ∀ a, Succ (Q a) (k a) C) : Succ P (m >>= k) C := by
  intro s hs b hb
  have hm := hm s hs
  change (andThen m k s).2 = _ at hb
  show C b (andThen m k s).1
  unfold andThen at hb ⊢
  cases hq : m s with
  | mk s1 r =>
    rw [hq] at hm hb
    cases r with
    | ok a => exact hk a s1 (hm a rfl) b hb
    | err e => cases hb
    | hang => cases hb

theorem Succ.mono {P P' : St σ → Prop} {m : M σ α} {Q Q' : α → St σ → Prop} (h : Succ P m Q) (hp : ∀ s, P' s → P s) (hq : ∀ a s, Q a s → Q' a s) : Succ P' m Q' :=
  fun s hs a ha => hq _ _ (h s (hp s hs) a ha)

theorem succ_ret {P : St σ → Prop} (a : α) : Succ P (ret a) fun b s => b = a ∧ P s := fun s hs b hb => by
  injection hb with hb; exact ⟨hb.symm, hs⟩

theorem succ_throw {P : St σ → Prop} {Q : α → St σ → Prop} (e : UErr) : Succ P (throw e) Q := fun s _ b hb => nomatch hb

theorem succ_hang {P : St σ → Prop} {Q : α → St σ → Prop} : Succ P (fun s => (s, .hang)) Q := fun s _ b hb => nomatch hb

/-- The commands executed so far all succeeded and their answers were read, or the process died. -/
def Sync (l : List (Cmd × Did)) (p : Proc) : Prop :=
  p.exited = false ∧ ((p.alive = true ∧ p.out = [] ∧ p.done = l) ∨ p.alive = false)

/-- No line of an error text is the one that stands for success. -/
def Plain (run : σ → Cmd → σ × Did) : Prop := ∀ w c f m, (run w c).2 = .failed f m → f ≠ ready

/-- What stays: the process and the database. -/
theorem succ_call {e : UErr} {f : σ → σ × Option α} {P : St σ → Prop} {Q : α → St σ → Prop}
    (h : ∀ s a, P s → (f s.w).2 = some a → Q a { s with w := (f s.w).1 }) : Succ P (call e f) Q := fun s hs a ha => by
  unfold call at ha ⊢
  cases hf : f s.w with
  | mk w o =>
    rw [hf] at ha
    cases o with
    | none => cases ha
    | some b =>
      injection ha with ha; subst ha
      have := h s b hs (by rw [hf])
      rw [hf] at this; exact this

theorem succ_ask {f : σ → σ × α} {P : St σ → Prop} {Q : α → St σ → Prop} (h : ∀ s, P s → Q (f s.w).2 { s with w := (f s.w).1 }) : Succ P (ask f) Q := fun s hs a ha => by
  injection ha with ha; subst ha
  exact h s hs

theorem succ_check {e : UErr} {f : σ → σ × Bool} {P : St σ → Prop} {Q : Unit → St σ → Prop} (h : ∀ s, P s → (f s.w).2 = true → Q () { s with w := (f s.w).1 }) :
    Succ P (check e f) Q := fun s hs a ha => by
  unfold check at ha ⊢
  cases hf : f s.w with
  | mk w o =>
    rw [hf] at ha
    cases o with
    | false => cases ha
    | true => have := h s hs (by rw [hf]); rw [hf] at this; exact this

theorem succ_note {P : St σ → Prop} {Q : Unit → St σ → Prop} {e : Ev} (h : ∀ s, P s → Q () { s with log := s.log ++ [e] }) : Succ P (note e) Q := fun s hs _ _ => h s hs

theorem succ_read {f : Db → Except Err α} {P : St σ → Prop} {Q : α → St σ → Prop} (h : ∀ s a, P s → f s.db = .ok a → Q a s) : Succ P (read f) Q := fun s hs a ha => by
  unfold read at ha ⊢
  cases hf : f s.db with
  | error e => rw [hf] at ha; cases ha
  | ok b => rw [hf] at ha; injection ha with ha; subst ha; exact h s b hs hf

theorem succ_write {f : Db → Except Err Db} {P : St σ → Prop} {Q : Unit → St σ → Prop} (h : ∀ s db, P s → f s.db = .ok db → Q () { s with db }) : Succ P (write f) Q := fun s hs a ha => by
  unfold write at ha ⊢
  cases hf : f s.db with
  | error e => rw [hf] at ha; cases ha
  | ok b => exact h s b hs hf

/-- A property of the database and the events that later events do not change. -/
def Lasting (X : Db → List Ev → Prop) : Prop := ∀ d g e, X d g → X d (g ++ [e])

section
variable {E : Env σ} {run : σ → Cmd → σ × Did} {X : Db → List Ev → Prop} {l : List (Cmd × Did)} {c : Cmd}

/-- The process after a command, and what can be read then. -/
def Told (run : σ → Cmd → σ × Did) (l : List (Cmd × Did)) (c : Cmd) (p : Proc) : Prop :=
  p.exited = false ∧
  ((p.alive = true ∧ p.done = l ++ [(c, .ok)] ∧ p.out = [ready]) ∨
    (p.alive = true ∧ ∃ f m, (∃ w, (run w c).2 = .failed f m) ∧ p.out = f :: m ++ [ready]) ∨
    p.alive = false)

theorem succ_trySend (hc : c ≠ .quit) (hX : Lasting X) :
    Succ (fun s => Sync l s.w.2 ∧ X s.db s.log) (trySend (withProc E run) c) (fun b s => b = true ∧ Told run l c s.w.2 ∧ X s.db s.log) := by
  refine (succ_ask (Q := fun b s => b = true ∧ Told run l c s.w.2 ∧ X s.db s.log) ?_).bind fun b =>
    (succ_note (Q := fun _ s => b = true ∧ Told run l c s.w.2 ∧ X s.db s.log) fun s ⟨h1, h2, h3⟩ => ⟨h1, h2, hX _ _ _ h3⟩).bind fun _ =>
      (succ_ret b).mono (fun _ h => h) fun a s ⟨h1, h2⟩ => h1 ▸ h2
  rintro s ⟨⟨h0, h | h⟩, hx⟩
  · simp only [withProc, h.1, if_true]
    refine ⟨trivial, ⟨by cases c <;> cases hd : (run s.w.1 _).2 <;> simp_all [Proc.turn], ?_⟩, hx⟩
    cases hd : (run s.w.1 c).2 with
    | ok => exact .inl (by cases c <;> simp_all [Proc.turn])
    | failed f m => exact .inr (.inl ⟨by cases c <;> simp_all [Proc.turn], f, m, ⟨_, hd⟩, by cases c <;> simp_all [Proc.turn]⟩)
    | died ls => exact .inr (.inr (by cases c <;> simp_all [Proc.turn]))
  · simp only [withProc, h]
    exact ⟨rfl, ⟨h0, .inr (.inr h)⟩, hx⟩

theorem succ_send (hc : c ≠ .quit) (hX : Lasting X) :
    Succ (fun s => Sync l s.w.2 ∧ X s.db s.log) (send (withProc E run) c) (fun _ s => Told run l c s.w.2 ∧ X s.db s.log) :=
  (succ_trySend hc hX).bind fun b => by
    cases b
    · exact succ_throw _
    · exact (succ_ret _).mono (fun _ h => h) fun a s h => h.2.2

/-- Read a line. -/
theorem succ_scan {P : Proc → Prop} (hX : Lasting X) :
    Succ (fun s => P s.w.2 ∧ X s.db s.log) (scan (withProc E run)) (fun y s => X s.db s.log ∧ ∃ p, P p ∧
      ((∃ t r, p.out = t :: r ∧ y = .text t ∧ s.w.2 = { p with out := r }) ∨ (p.out = [] ∧ s.w.2 = p ∧ y = if p.alive then .block else .eof))) := by
  refine (succ_ask (Q := fun y s => X s.db s.log ∧ ∃ p, P p ∧
      ((∃ t r, p.out = t :: r ∧ y = .text t ∧ s.w.2 = { p with out := r }) ∨ (p.out = [] ∧ s.w.2 = p ∧ y = if p.alive then .block else .eof))) ?_).bind fun y =>
    (succ_note (Q := fun _ s => X s.db s.log ∧ ∃ p, P p ∧
      ((∃ t r, p.out = t :: r ∧ y = .text t ∧ s.w.2 = { p with out := r }) ∨ (p.out = [] ∧ s.w.2 = p ∧ y = if p.alive then .block else .eof)))
      fun s ⟨h1, h2⟩ => ⟨hX _ _ _ h1, h2⟩).bind fun _ => (succ_ret y).mono (fun _ h => h) fun a s ⟨h1, h2⟩ => h1 ▸ h2
  rintro s ⟨h1, h2⟩
  refine ⟨h2, s.w.2, h1, ?_⟩
  simp only [withProc]
  cases ho : s.w.2.out with
  | nil => exact .inr ⟨rfl, rfl, rfl⟩
  | cons t r => exact .inl ⟨t, r, rfl, rfl, rfl⟩

theorem succ_expect (hr : Plain run) (hX : Lasting X) :
    Succ (fun s => Told run l c s.w.2 ∧ X s.db s.log) (expect (withProc E run) ready) (fun _ s => Sync (l ++ [(c, .ok)]) s.w.2 ∧ X s.db s.log) := by
  refine (succ_scan (P := Told run l c) hX).bind fun y => ?_
  have dead : ∀ s : St (σ × Proc), (∃ p, Told run l c p ∧
      ((∃ t r, p.out = t :: r ∧ y = .text t ∧ s.w.2 = { p with out := r }) ∨ (p.out = [] ∧ s.w.2 = p ∧ y = if p.alive then .block else .eof))) →
      (y = .text ready ∨ y = .eof) → Sync (l ++ [(c, .ok)]) s.w.2 := by
    rintro s ⟨p, ⟨h0, hp⟩, hy⟩ hy'
    rcases hy with ⟨t, r, h1, h2, h3⟩ | ⟨h1, h2, h3⟩
    · rw [h3]
      refine ⟨h0, ?_⟩
      rcases hp with ⟨q1, q2, q3⟩ | ⟨q1, f, m, ⟨w, q2⟩, q3⟩ | q1
      · rw [q3] at h1; injection h1 with _ h1
        exact .inl ⟨q1, h1.symm, q2⟩
      · rw [q3] at h1; injection h1 with h1 _
        rcases hy' with hy' | hy'
        · rw [h2] at hy'; injection hy' with hy'
          exact absurd (h1.trans hy') (hr _ _ _ _ q2)
        · rw [h2] at hy'; cases hy'
      · exact .inr q1
    · rw [h2]
      refine ⟨h0, .inr ?_⟩
      rcases hp with ⟨q1, q2, q3⟩ | ⟨q1, f, m, ⟨w, q2⟩, q3⟩ | q1
      · rw [q3] at h1; cases h1
      · rw [q3] at h1; cases h1
      · exact q1
  cases y with
  | text t =>
    show Succ _ (if t = ready then ret () else throw (.crypt t)) _
    split
    · rename_i ht
      exact (succ_ret _).mono (fun _ h => h) fun a s ⟨_, h1, h2⟩ => ⟨dead s h2 (.inl (by rw [ht])), h1⟩
    · exact succ_throw _
  | eof => exact (succ_ret _).mono (fun _ h => h) fun a s ⟨_, h1, h2⟩ => ⟨dead s h2 (.inr rfl), h1⟩
  | fail => exact succ_throw _
  | block => exact succ_hang

/-- A process that died stays dead. -/
theorem succ_dead (hX : Lasting X) : ∀ (n : Nat) (x : Loop),
    Succ (fun s => (s.w.2.exited = false ∧ s.w.2.alive = false) ∧ X s.db s.log) (untilReady (withProc E run) n x)
      (fun _ s => (s.w.2.exited = false ∧ s.w.2.alive = false) ∧ X s.db s.log)
  | 0, _ => succ_hang
  | n + 1, x => by
    refine (succ_scan (P := fun p => p.exited = false ∧ p.alive = false) hX).bind fun y => ?_
    have dead : ∀ s : St (σ × Proc), (X s.db s.log ∧ ∃ p : Proc, (p.exited = false ∧ p.alive = false) ∧
        ((∃ t r, p.out = t :: r ∧ y = .text t ∧ s.w.2 = { p with out := r }) ∨ (p.out = [] ∧ s.w.2 = p ∧ y = if p.alive then .block else .eof))) →
        (s.w.2.exited = false ∧ s.w.2.alive = false) ∧ X s.db s.log := by
      rintro s ⟨hx, p, hp, ⟨t, r, _, _, h3⟩ | ⟨_, h3, _⟩⟩ <;> rw [h3] <;> exact ⟨hp, hx⟩
    cases y with
    | text t =>
      show Succ _ (if t = ready then ret x else untilReady (withProc E run) n (.bad t)) _
      split
      · exact (succ_ret _).mono dead fun a s h => h.2
      · exact (succ_dead hX n _).mono dead fun a s h => h
    | eof => exact (succ_ret _).mono dead fun a s h => h.2
    | fail => exact (succ_ret _).mono dead fun a s h => h.2
    | block => exact succ_hang

theorem succ_until (hr : Plain run) (hX : Lasting X) (n : Nat) :
    Succ (fun s => Told run l c s.w.2 ∧ X s.db s.log) (untilReady (withProc E run) n .fine)
      (fun x s => x = .fine → Sync (l ++ [(c, .ok)]) s.w.2 ∧ X s.db s.log) := by
  rintro s ⟨⟨h0, ht⟩, hx⟩ a ha hf
  rcases ht with ⟨q1, q2, q3⟩ | ⟨q1, f, m, ⟨w, q2⟩, q3⟩ | q1
  · -- the answer is "READY."
    cases n with
    | zero => cases ha
    | succ n =>
      have : untilReady (withProc E run) (n + 1) .fine s =
          (⟨(s.w.1, { s.w.2 with out := [] }), s.db, s.log ++ [.said (.text ready)]⟩, .ok .fine) := by
        conv => lhs; unfold untilReady
        show andThen (scan (withProc E run)) _ s = _
        have hs : scan (withProc E run) s = (⟨(s.w.1, { s.w.2 with out := [] }), s.db, s.log ++ [.said (.text ready)]⟩, .ok (.text ready)) := by
          show andThen (ask (withProc E run).line) (fun l => andThen (note (.said l)) fun _ => ret l) s = _
          simp only [andThen, ask, note, ret, withProc, q3]
        unfold andThen
        rw [hs]
        rfl
      rw [this]
      exact ⟨⟨h0, .inl ⟨q1, rfl, q2⟩⟩, hX _ _ _ hx⟩
  · -- an error
    cases n with
    | zero => cases ha
    | succ n =>
      have : untilReady (withProc E run) (n + 1) .fine s =
          untilReady (withProc E run) n (.bad f) ⟨(s.w.1, { s.w.2 with out := m ++ [ready] }), s.db, s.log ++ [.said (.text f)]⟩ := by
        conv => lhs; unfold untilReady
        show andThen (scan (withProc E run)) _ s = _
        have hs : scan (withProc E run) s = (⟨(s.w.1, { s.w.2 with out := m ++ [ready] }), s.db, s.log ++ [.said (.text f)]⟩, .ok (.text f)) := by
          show andThen (ask (withProc E run).line) (fun l => andThen (note (.said l)) fun _ => ret l) s = _
          simp only [andThen, ask, note, ret, withProc, q3, List.cons_append]
        unfold andThen
        rw [hs]
        show (if f = ready then ret .fine else untilReady (withProc E run) n (.bad f)) _ = _
        rw [if_neg (hr _ _ _ _ q2)]
      rw [this] at ha
      obtain ⟨_, _, h⟩ := adds_until (withProc E run) n (.bad f) ⟨(s.w.1, { s.w.2 with out := m ++ [ready] }), s.db, s.log ++ [.said (.text f)]⟩
      have := h.2.2.1 (by rw [ha, hf])
      exact nomatch this.1
  · have := succ_dead (E := E) (run := run) hX n .fine s ⟨⟨h0, q1⟩, hx⟩ a ha
    exact ⟨⟨this.1.1, .inr this.1.2⟩, this.2⟩

theorem succ_take {P : Proc → Prop} (hX : Lasting X) (u : Usage) (o : Bytes) :
    Succ (fun s => P s.w.2 ∧ X s.db s.log) (takeToken (withProc E run) u o) (fun _ s => P s.w.2 ∧ X s.db s.log) :=
  (succ_call (Q := fun _ s => P s.w.2 ∧ X s.db s.log) fun s a hs _ => hs).bind fun _ =>
    (succ_note (Q := fun _ s => P s.w.2 ∧ X s.db s.log) fun s hs => ⟨hs.1, hX _ _ _ hs.2⟩).bind fun _ => (succ_ret _).mono (fun _ h => h) fun a s h => h.2

theorem succ_del {P : Proc → Prop} (hX : Lasting X) (t : Bytes) :
    Succ (fun s => P s.w.2 ∧ X s.db s.log) (del (withProc E run) t) (fun _ s => P s.w.2 ∧ X s.db s.log) := fun s hs a _ => ⟨hs.1, hX _ _ _ hs.2⟩

theorem succ_any {P : St σ → Prop} (m : M σ α) : Succ P m fun _ _ => True := fun _ _ _ _ => trivial

theorem succ_register (hr : Plain run) (hX : Lasting X) (n : Nat) (id owner : Bytes) :
    Succ (fun s => Sync l s.w.2 ∧ X s.db s.log) (register (withProc E run) n id owner)
      (fun r s => r = none → ∃ t, Sync (l ++ [(.register id t, .ok)]) s.w.2 ∧ X s.db s.log) := by
  refine (succ_take (P := Sync l) hX .uid owner).bind fun t => (succ_trySend (c := .register id t) (by nofun) hX).bind fun b => ?_
  cases b with
  | false => exact fun s h => nomatch h.1
  | true =>
    refine ((succ_until hr hX n).mono (fun s h => h.2) fun a s h => h).bind fun x => ?_
    cases x with
    | broken => exact (succ_any _).bind fun _ => succ_throw _
    | bad b =>
      refine (succ_any _).bind fun _ => (succ_any _).bind fun _ => (succ_any _).bind fun _ => (succ_ret _).mono (fun _ _ => trivial) ?_
      rintro a s ⟨rfl, _⟩ hn
      cases hn
    | fine =>
      exact ((succ_del (P := Sync (l ++ [(.register id t, .ok)])) hX t).mono (fun s h => h rfl) fun a s h => h).bind fun _ =>
        (succ_ret _).mono (fun _ h => h) fun a s h _ => ⟨t, h.2⟩

theorem succ_addKeyInit (hr : Plain run) (hX : Lasting X) (id x y owner : Bytes) :
    Succ (fun s => Sync l s.w.2 ∧ X s.db s.log) (addKeyInit (withProc E run) id x y owner)
      (fun _ s => ∃ t, Sync (l ++ [(.keyinit id x y t, .ok)]) s.w.2 ∧ X s.db s.log) := by
  refine (succ_take (P := Sync l) hX .message owner).bind fun t => (succ_trySend (c := .keyinit id x y t) (by nofun) hX).bind fun b => ?_
  cases b with
  | false => exact fun s h => nomatch h.1
  | true =>
    -- the same as with one line that is to be "READY."
    intro s hs a ha
    have h := succ_expect (E := E) (c := .keyinit id x y t) (l := l) hr hX s hs.2
    change (andThen (scan (withProc E run)) _ s).2 = _ at ha
    show ∃ t', Sync (l ++ [(.keyinit id x y t', .ok)]) (andThen (scan (withProc E run)) _ s).1.w.2 ∧ X (andThen (scan (withProc E run)) _ s).1.db (andThen (scan (withProc E run)) _ s).1.log
    change ∀ a, (andThen (scan (withProc E run)) _ s).2 = _ → Sync _ (andThen (scan (withProc E run)) _ s).1.w.2 ∧ X (andThen (scan (withProc E run)) _ s).1.db (andThen (scan (withProc E run)) _ s).1.log at h
    unfold andThen at h ha ⊢
    cases hq : scan (withProc E run) s with
    | mk s1 r =>
      rw [hq] at h ha
      cases r with
      | err e => cases ha
      | hang => cases ha
      | ok z =>
        cases z with
        | text u =>
          by_cases hu : u = ready
          · subst hu
            have h := h () rfl
            exact ⟨t, h.1, hX _ _ _ h.2⟩
          · exfalso
            change ((if u = ready then del (withProc E run) t else throw (.crypt u)) s1).2 = _ at ha
            rw [if_neg hu] at ha; cases ha
        | eof =>
          have h := h () rfl
          exact ⟨t, h.1, hX _ _ _ h.2⟩
        | fail => cases ha
        | block => cases ha

/-- `mutecrypt` was told to quit. -/
theorem succ_quit (hX : Lasting X) : Succ (fun s => Sync l s.w.2 ∧ X s.db s.log)
    (do
      send (withProc E run) .quit
      expect (withProc E run) quitting
      check .wait (withProc E run).wait) (fun _ s => s.w.2.done = l ++ [(.quit, .ok)] ∧ X s.db s.log) := by
  refine Succ.bind (Q := fun _ s => (s.w.2.exited = true → s.w.2.done = l ++ [(.quit, .ok)]) ∧ X s.db s.log) ?_ fun _ =>
    Succ.bind (Q := fun _ s => (s.w.2.exited = true → s.w.2.done = l ++ [(.quit, .ok)]) ∧ X s.db s.log) ?_ fun _ => succ_check fun s hs he => ⟨hs.1 he, hs.2⟩
  · refine Succ.bind (Q := fun _ s => (s.w.2.exited = true → s.w.2.done = l ++ [(.quit, .ok)]) ∧ X s.db s.log) ?_ fun b => ?_
    · refine (succ_ask (Q := fun _ s => (s.w.2.exited = true → s.w.2.done = l ++ [(.quit, .ok)]) ∧ X s.db s.log) ?_).bind fun b =>
        (succ_note (Q := fun _ s => (s.w.2.exited = true → s.w.2.done = l ++ [(.quit, .ok)]) ∧ X s.db s.log) fun s ⟨h1, h2⟩ => ⟨h1, hX _ _ _ h2⟩).bind fun _ =>
          (succ_ret b).mono (fun _ h => h) fun a s ⟨h1, h2⟩ => h2
      rintro s ⟨⟨h0, h | h⟩, hx⟩
      · simp only [withProc, h.1, if_true]
        exact ⟨fun _ => by rw [show (s.w.2.turn .quit _).done = s.w.2.done ++ [(.quit, .ok)] from rfl, h.2.2], hx⟩
      · simp only [withProc, h]
        exact ⟨fun he => (by rw [show s.w.2.exited = true from he] at h0; cases h0), hx⟩
    · cases b
      · exact succ_throw _
      · exact (succ_ret _).mono (fun _ h => h) fun a s h => h.2
  · refine (succ_scan (P := fun p => p.exited = true → p.done = l ++ [(.quit, .ok)]) hX).bind fun y => ?_
    have keep : ∀ s : St (σ × Proc), (X s.db s.log ∧ ∃ p : Proc, (p.exited = true → p.done = l ++ [(.quit, .ok)]) ∧
        ((∃ t r, p.out = t :: r ∧ y = .text t ∧ s.w.2 = { p with out := r }) ∨ (p.out = [] ∧ s.w.2 = p ∧ y = if p.alive then .block else .eof))) →
        (s.w.2.exited = true → s.w.2.done = l ++ [(.quit, .ok)]) ∧ X s.db s.log := by
      rintro s ⟨hx, p, hp, ⟨t, r, _, _, h3⟩ | ⟨_, h3, _⟩⟩ <;> rw [h3] <;> exact ⟨hp, hx⟩
    cases y with
    | text t =>
      show Succ _ (if t = quitting then ret () else throw (.crypt t)) _
      split
      · exact (succ_ret _).mono keep fun a s h => h.2
      · exact succ_throw _
    | eof => exact (succ_ret _).mono keep fun a s h => h.2
    | fail => exact succ_throw _
    | block => exact succ_hang

theorem bind_assoc {γ : Type} (m : M σ α) (k : α → M σ β) (k' : β → M σ γ) : ((m >>= k) >>= k') = (m >>= fun a => k a >>= k') := by
  funext s
  show andThen (andThen m k) k' s = andThen m (fun a => andThen (k a) k') s
  unfold andThen
  cases m s with
  | mk s1 r => cases r <;> rfl

theorem succ_newCrypt (hr : Plain run) (hX : Lasting X) (n : Nat) (id x y : Bytes) :
    Succ (fun s => X s.db s.log) (newCrypt (withProc E run) n id x y)
      (fun _ s => ∃ t t', s.w.2.done = [(.generate id, .ok), (.caps (E.domain id), .ok), (.register id t, .ok), (.keyinit id x y t', .ok), (.quit, .ok)] ∧ X s.db s.log) := by
  have hp : Succ (fun s => X s.db s.log) (prepare (withProc E run) id) fun _ s => Sync [(.generate id, .ok), (.caps (E.domain id), .ok)] s.w.2 ∧ X s.db s.log :=
    (succ_check (Q := fun _ s => Sync [] s.w.2 ∧ X s.db s.log) fun s hs _ => ⟨⟨rfl, .inl ⟨rfl, rfl, rfl⟩⟩, hs⟩).bind fun _ =>
      (succ_send (c := .generate id) (by nofun) hX).bind fun _ => (succ_expect hr hX).bind fun _ =>
      (succ_send (c := .caps (E.domain id)) (by nofun) hX).bind fun _ => (succ_expect hr hX).bind fun _ => succ_call fun s a hs _ => hs
  refine hp.bind fun owner => (succ_register hr hX n id owner).bind fun err => ?_
  cases err with
  | some b =>
    exact (succ_any _).bind fun _ => (succ_any _).bind fun _ => (succ_any _).bind fun _ => (succ_any _).bind fun _ => succ_throw _
  | none =>
    intro s hs
    obtain ⟨t, hs⟩ := hs rfl
    have h2 := (succ_addKeyInit (E := E) (l := [(.generate id, .ok), (.caps (E.domain id), .ok)] ++ [(.register id t, .ok)]) hr hX id x y owner).bind
      (k := fun _ => (do
        send (withProc E run) .quit
        expect (withProc E run) quitting
        check .wait (withProc E run).wait : M (σ × Proc) Unit))
      (C := fun _ s => ∃ t', s.w.2.done = [(.generate id, .ok), (.caps (E.domain id), .ok), (.register id t, .ok), (.keyinit id x y t', .ok), (.quit, .ok)] ∧ X s.db s.log)
      (fun _ s h => by
        obtain ⟨t', h⟩ := h
        intro a ha
        exact ⟨t', succ_quit hX s h a ha⟩)
    have h3 := h2.bind (k := fun _ => ret ()) (C := fun _ s => ∃ t t', s.w.2.done = [(.generate id, .ok), (.caps (E.domain id), .ok), (.register id t, .ok), (.keyinit id x y t', .ok), (.quit, .ok)] ∧ X s.db s.log)
      (fun _ => (succ_ret _).mono (fun _ h => h) fun a s h => ⟨t, h.2⟩)
    simp only [bind_assoc] at h3
    exact h3 s hs

end

end Verif.Ctrl.Uid

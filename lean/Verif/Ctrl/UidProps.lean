/-
C108: what happens to tokens when a user ID is made.
-/
import Verif.Ctrl.Uid
import Verif.Ctrl.Contact

namespace Verif.Ctrl.Uid
open Verif.Sql Verif.Msgdb

variable {σ α β : Type}

/-! ### specification -/

/-- How often the token `t` was taken from the wallet. -/
def takes (t : Bytes) : Ev → Bool
  | .took _ t' => t' == t
  | _ => false

/-- Each token that was taken from the wallet was deleted or given back. -/
def Balanced (l : List Ev) : Prop := ∀ t, l.countP (takes t) = l.count (.gone t) + l.count (.freed t)

/-- The token in a command. -/
def Cmd.token : Cmd → Option Bytes
  | .register _ t => some t
  | .keyinit _ _ _ t => some t
  | _ => none

/-- How often a server took the token `t`, as far as the control engine can tell: an account was
paid for, or `mutecrypt` said at once that it is ready for the next command, or its output ended. -/
def served (t : Bytes) : List Ev → Nat
  | [] => 0
  | [e] => match e with
    | .paid _ _ t' => if t' = t then 1 else 0
    | _ => 0
  | e :: e' :: r => (match e, e' with
    | .paid _ _ t', _ => if t' = t then 1 else 0
    | .sent c, .said l => if c.token = some t ∧ (l = .text ready ∨ l = .eof) then 1 else 0
    | _, _ => 0) + served t (e' :: r)

/-- Tokens are deleted exactly if a server took them. -/
def Spent (l : List Ev) : Prop := ∀ t, l.count (.gone t) = served t l

/-! ### composition -/

def isSaid : Ev → Bool
  | .said _ => true
  | _ => false

theorem served_append (t : Bytes) : ∀ (l l' : List Ev), (∀ e, l'.head? = some e → isSaid e = false) → served t (l ++ l') = served t l + served t l'
  | [], l', _ => by simp [served]
  | [e], l', h => by
    cases l' with
    | nil => simp [served]
    | cons e' r =>
      have := h e' rfl
      cases e <;> cases e' <;> simp_all [served, isSaid]
  | e :: e' :: r, l', h => by
    have := served_append t (e' :: r) l' h
    simp only [List.cons_append] at this ⊢
    simp only [served, this, Nat.add_assoc]

theorem Balanced.append {l l' : List Ev} (h : Balanced l) (h' : Balanced l') : Balanced (l ++ l') := fun t => by
  simp only [List.countP_append, List.count_append, h t, h' t]; omega

theorem Spent.append {l l' : List Ev} (h : Spent l) (h' : Spent l') (hd : ∀ e, l'.head? = some e → isSaid e = false) : Spent (l ++ l') := fun t => by
  rw [List.count_append, served_append t l l' hd, h t, h' t]

/-- What a command adds to the log. -/
def Adds (m : M σ α) (P : List Ev → R α → Prop) : Prop := ∀ s, ∃ new, (m s).1.log = s.log ++ new ∧ P new (m s).2

theorem Adds.bind {m : M σ α} {k : α → M σ β} {P : List Ev → R α → Prop} {Q : α → List Ev → R β → Prop} {C : List Ev → R β → Prop}
    (hm : Adds m P) (hk : ∀ a, Adds (k a) (Q a)) (h1 : ∀ l1 l2 a r, P l1 (.ok a) → Q a l2 r → C (l1 ++ l2) r)
    (h2 : ∀ l e, P l (.err e) → C l (.err e)) (h3 : ∀ l, P l .hang → C l .hang) : Adds (m >>= k) C := by
  intro s
  obtain ⟨l, hl, hp⟩ := hm s
  show ∃ new, (andThen m k s).1.log = s.log ++ new ∧ C new (andThen m k s).2
  unfold andThen
  cases hq : m s with
  | mk s1 r =>
    rw [hq] at hl hp
    cases r with
    | ok a =>
      obtain ⟨l2, hl2, hq2⟩ := hk a s1
      exact ⟨l ++ l2, by rw [hl2, show s1.log = _ from hl, List.append_assoc], h1 _ _ _ _ hp hq2⟩
    | err e => exact ⟨l, hl, h2 _ _ hp⟩
    | hang => exact ⟨l, hl, h3 _ hp⟩

theorem Adds.mono {m : M σ α} {P Q : List Ev → R α → Prop} (h : Adds m P) (hi : ∀ l r, P l r → Q l r) : Adds m Q := fun s => by
  obtain ⟨l, hl, hp⟩ := h s
  exact ⟨l, hl, hi _ _ hp⟩

theorem adds_ret (a : α) : Adds (ret a : M σ α) fun l r => l = [] ∧ r = .ok a := fun s => ⟨[], by simp [ret], rfl, rfl⟩

theorem adds_throw (e : UErr) : Adds (throw e : M σ α) fun l r => l = [] ∧ r = .err e := fun s => ⟨[], by simp [throw], rfl, rfl⟩

theorem adds_hang : Adds (fun s => (s, .hang) : M σ α) fun l r => l = [] ∧ r = .hang := fun s => ⟨[], by simp, rfl, rfl⟩

theorem adds_call (e : UErr) (f : σ → σ × Option α) : Adds (call e f) fun l r => l = [] ∧ (r = .err e ∨ ∃ a, r = .ok a) := fun s => by
  unfold call
  cases hf : f s.w with
  | mk w o => cases o <;> exact ⟨[], by simp, rfl, by simp⟩

theorem adds_ask (f : σ → σ × α) : Adds (ask f) fun l r => l = [] ∧ ∃ a, r = .ok a := fun s => ⟨[], by simp [ask], rfl, _, rfl⟩

theorem adds_check (e : UErr) (f : σ → σ × Bool) : Adds (check e f) fun l r => l = [] ∧ (r = .err e ∨ r = .ok ()) := fun s => by
  unfold check
  cases hf : f s.w with
  | mk w o => cases o <;> exact ⟨[], by simp, rfl, by simp⟩

theorem adds_read (f : Db → Except Err α) : Adds (read f : M σ α) fun l r => l = [] ∧ ((∃ e, r = .err (.db e)) ∨ ∃ a, r = .ok a) := fun s => by
  unfold read
  cases hf : f s.db <;> exact ⟨[], by simp, rfl, by simp⟩

theorem adds_write (f : Db → Except Err Db) : Adds (write f : M σ Unit) fun l r => l = [] ∧ ((∃ e, r = .err (.db e)) ∨ r = .ok ()) := fun s => by
  unfold write
  cases hf : f s.db <;> exact ⟨[], by simp, rfl, by simp⟩

theorem adds_note (e : Ev) : Adds (note e : M σ Unit) fun l r => l = [e] ∧ r = .ok () := fun s => ⟨[e], rfl, rfl, rfl⟩

theorem adds_unlock (E : Env σ) (t : Bytes) : Adds (unlock E t) fun l r => l = [.freed t] ∧ r = .ok () := fun s => ⟨_, rfl, rfl, rfl⟩

theorem adds_del (E : Env σ) (t : Bytes) : Adds (del E t) fun l r => l = [.gone t] ∧ r = .ok () := fun s => ⟨_, rfl, rfl, rfl⟩

theorem adds_take (E : Env σ) (u : Usage) (o : Bytes) :
    Adds (takeToken E u o) fun l r => (l = [] ∧ r = .err .wallet) ∨ ∃ t, l = [.took u t] ∧ r = .ok t := by
  refine (adds_call _ _).bind (fun t => (adds_note _).bind (fun _ => adds_ret t) (C := fun l r => l = [.took u t] ∧ r = .ok t) ?_ ?_ ?_) ?_ ?_ ?_
  · rintro l1 l2 a r ⟨rfl, _⟩ ⟨rfl, rfl⟩; exact ⟨rfl, rfl⟩
  · rintro l e ⟨_, h⟩; cases h
  · rintro l ⟨_, h⟩; cases h
  · rintro l1 l2 a r ⟨rfl, _⟩ ⟨rfl, rfl⟩; exact .inr ⟨_, rfl, rfl⟩
  · rintro l e ⟨rfl, h | ⟨a, h⟩⟩
    · exact .inl ⟨rfl, h⟩
    · cases h
  · rintro l ⟨_, h | ⟨a, h⟩⟩ <;> cases h

theorem adds_trySend (E : Env σ) (c : Cmd) : Adds (trySend E c) fun l r => l = [.sent c] ∧ ∃ b, r = .ok b := by
  refine (adds_ask _).bind (fun b => (adds_note _).bind (fun _ => adds_ret b) (C := fun l r => l = [.sent c] ∧ r = .ok b) ?_ ?_ ?_) ?_ ?_ ?_
  · rintro l1 l2 a r ⟨rfl, _⟩ ⟨rfl, rfl⟩; exact ⟨rfl, rfl⟩
  · rintro l e ⟨_, h⟩; cases h
  · rintro l ⟨_, h⟩; cases h
  · rintro l1 l2 a r ⟨rfl, _⟩ ⟨rfl, rfl⟩; exact ⟨rfl, _, rfl⟩
  · rintro l e ⟨_, _, h⟩; cases h
  · rintro l ⟨_, _, h⟩; cases h

theorem adds_send (E : Env σ) (c : Cmd) : Adds (send E c) fun l r => l = [.sent c] ∧ (r = .ok () ∨ r = .err .pipe) := by
  refine (adds_trySend E c).bind (Q := fun _ l r => l = [] ∧ (r = .ok () ∨ r = .err .pipe)) (fun b => ?_) ?_ ?_ ?_
  · cases b
    · exact (adds_throw _).mono fun l r h => ⟨h.1, .inr h.2⟩
    · exact (adds_ret _).mono fun l r h => ⟨h.1, .inl h.2⟩
  · rintro l1 l2 a r ⟨rfl, _⟩ ⟨rfl, h⟩; exact ⟨rfl, h⟩
  · rintro l e ⟨_, _, h⟩; cases h
  · rintro l ⟨_, _, h⟩; cases h

theorem adds_scan (E : Env σ) : Adds (scan E) fun l r => ∃ x, l = [.said x] ∧ r = .ok x := by
  refine (adds_ask _).bind (fun x => (adds_note _).bind (fun _ => adds_ret x) (C := fun l r => l = [.said x] ∧ r = .ok x) ?_ ?_ ?_) ?_ ?_ ?_
  · rintro l1 l2 a r ⟨rfl, _⟩ ⟨rfl, rfl⟩; exact ⟨rfl, rfl⟩
  · rintro l e ⟨_, h⟩; cases h
  · rintro l ⟨_, h⟩; cases h
  · rintro l1 l2 a r ⟨rfl, _⟩ ⟨rfl, rfl⟩; exact ⟨_, rfl, rfl⟩
  · rintro l e ⟨_, _, h⟩; cases h
  · rintro l ⟨_, _, h⟩; cases h

/-- One line was read. -/
theorem adds_expect (E : Env σ) (want : Bytes) : Adds (expect E want) fun l _ => ∃ x, l = [.said x] := by
  refine (adds_scan E).bind (Q := fun _ l _ => l = []) (fun x => ?_) ?_ ?_ ?_
  · cases x with
    | text t =>
      show Adds (if t = want then ret () else throw (.crypt t)) _
      split
      · exact (adds_ret _).mono fun l r h => h.1
      · exact (adds_throw _).mono fun l r h => h.1
    | eof => exact (adds_ret _).mono fun l r h => h.1
    | fail => exact (adds_throw _).mono fun l r h => h.1
    | block => exact adds_hang.mono fun l r h => h.1
  · rintro l1 l2 a r ⟨x, rfl, _⟩ rfl; exact ⟨x, rfl⟩
  · rintro l e ⟨_, _, h⟩; cases h
  · rintro l ⟨_, _, h⟩; cases h

/-- The lines that were read, the first of which decides whether there was an error. -/
theorem adds_until (E : Env σ) : ∀ (n : Nat) (x : Loop), Adds (untilReady E n x) fun l r =>
    (∀ e ∈ l, isSaid e = true) ∧ (∀ e, r ≠ .err e) ∧
    (r = .ok .fine → x = .fine ∧ ∃ y r, (y = .text ready ∨ y = .eof) ∧ l = .said y :: r) ∧
    (∀ b, r = .ok (.bad b) → x ≠ .fine ∨ ∃ y r, l = .said (.text y) :: r ∧ y ≠ ready) ∧
    (r = .ok .broken → x = .broken ∨ ∃ y r, l = .said y :: r ∧ y ≠ .text ready ∧ y ≠ .eof)
  | 0, x => adds_hang.mono fun l r h => by
      obtain ⟨rfl, rfl⟩ := h
      exact ⟨by simp, nofun, nofun, nofun, nofun⟩
  | n + 1, x => by
    refine (adds_scan E).bind (Q := fun y l r => (∀ e ∈ l, isSaid e = true) ∧ (∀ e, r ≠ .err e) ∧
      (r = .ok .fine → x = .fine ∧ (y = .text ready ∨ y = .eof)) ∧
      (∀ b, r = .ok (.bad b) → x ≠ .fine ∨ ∃ t, y = .text t ∧ t ≠ ready) ∧
      (r = .ok .broken → x = .broken ∨ (y ≠ .text ready ∧ y ≠ .eof))) (fun y => ?_) ?_ ?_ ?_
    · cases y with
      | text t =>
        show Adds (if t = ready then ret x else untilReady E n (.bad t)) _
        split
        · rename_i ht
          refine (adds_ret _).mono fun l r h => ?_
          obtain ⟨rfl, rfl⟩ := h
          refine ⟨by simp, nofun, fun h => ?_, fun b h => ?_, fun h => ?_⟩
          · injection h with h; exact ⟨h, .inl (by rw [ht])⟩
          · injection h with h; exact .inl (by rw [h]; nofun)
          · injection h with h; exact .inl h
        · rename_i ht
          refine (adds_until E n (.bad t)).mono fun l r h => ?_
          obtain ⟨h1, h2, h3, h4, h5⟩ := h
          exact ⟨h1, h2, fun h => (nomatch (h3 h).1), fun b h => .inr ⟨t, rfl, ht⟩, fun h => .inr ⟨fun h => ht (by injection h), nofun⟩⟩
      | eof =>
        refine (adds_ret _).mono fun l r h => ?_
        obtain ⟨rfl, rfl⟩ := h
        refine ⟨by simp, nofun, fun h => ?_, fun b h => ?_, fun h => ?_⟩
        · injection h with h; exact ⟨h, .inr rfl⟩
        · injection h with h; exact .inl (by rw [h]; nofun)
        · injection h with h; exact .inl h
      | fail =>
        refine (adds_ret _).mono fun l r h => ?_
        obtain ⟨rfl, rfl⟩ := h
        exact ⟨by simp, nofun, nofun, nofun, fun h => .inr ⟨nofun, nofun⟩⟩
      | block =>
        refine adds_hang.mono fun l r h => ?_
        obtain ⟨rfl, rfl⟩ := h
        exact ⟨by simp, nofun, nofun, nofun, nofun⟩
    · rintro l1 l2 y r ⟨x', rfl, h⟩ ⟨h1, h2, h3, h4, h5⟩
      injection h with h; subst h
      refine ⟨?_, h2, fun h => ?_, fun b h => ?_, fun h => ?_⟩
      · intro e he
        rcases List.mem_cons.mp he with rfl | he
        · rfl
        · exact h1 e he
      · exact ⟨(h3 h).1, y, l2, (h3 h).2, rfl⟩
      · rcases h4 b h with h | ⟨t, rfl, ht⟩
        · exact .inl h
        · exact .inr ⟨t, l2, rfl, ht⟩
      · rcases h5 h with h | h
        · exact .inl h
        · exact .inr ⟨y, l2, rfl, h⟩
    · rintro l e ⟨_, _, h⟩; cases h
    · rintro l ⟨_, _, h⟩; cases h

/-- Neither tokens nor payments. -/
def Quiet (l : List Ev) : Prop := ∀ e ∈ l, match e with
  | .sent c => c.token = none
  | .said _ => True
  | _ => False

theorem Quiet.nil : Quiet [] := nofun

theorem Quiet.append {l l' : List Ev} (h : Quiet l) (h' : Quiet l') : Quiet (l ++ l') := fun e he =>
  (List.mem_append.mp he).elim (h e) (h' e)

theorem Quiet.balanced {l : List Ev} (h : Quiet l) : Balanced l := fun t => by
  have h1 : l.countP (takes t) = 0 := List.countP_eq_zero.mpr fun e he => by
    have := h e he
    cases e <;> simp_all [takes]
  have h2 : l.count (.gone t) = 0 := List.count_eq_zero.mpr fun he => by simpa using h _ he
  have h3 : l.count (.freed t) = 0 := List.count_eq_zero.mpr fun he => by simpa using h _ he
  omega

theorem Quiet.served {t : Bytes} : ∀ {l : List Ev}, Quiet l → served t l = 0
  | [], _ => rfl
  | [e], h => by
    have := h e (.head _)
    cases e <;> simp_all [Uid.served]
  | e :: e' :: r, h => by
    have ih := Quiet.served (t := t) (l := e' :: r) fun x hx => h x (.tail _ hx)
    have h1 := h e (.head _)
    cases e <;> cases e' <;> simp_all [Uid.served]

theorem Quiet.spent {l : List Ev} (h : Quiet l) : Spent l := fun t => by
  rw [h.served]
  exact List.count_eq_zero.mpr fun he => by simpa using h _ he

theorem quiet_said {l : List Ev} (h : ∀ e ∈ l, isSaid e = true) : Quiet l := fun e he => by
  have := h e he
  cases e <;> simp_all [isSaid]

/-- Tokens are settled, and the first event is not an answer. -/
structure Good (l : List Ev) : Prop where
  balanced : Balanced l
  spent : Spent l
  starts : ∀ e, l.head? = some e → isSaid e = false

theorem Good.append {l l' : List Ev} (h : Good l) (h' : Good l') : Good (l ++ l') where
  balanced := h.balanced.append h'.balanced
  spent := h.spent.append h'.spent h'.starts
  starts := fun e he => by
    cases l with
    | nil => exact h'.starts e he
    | cons x r => exact h.starts e (by simpa using he)

theorem Good.nil : Good [] := ⟨Quiet.nil.balanced, Quiet.nil.spent, nofun⟩

theorem Good.quiet {l : List Ev} (h : Quiet l) (hs : ∀ e, l.head? = some e → isSaid e = false) : Good l := ⟨h.balanced, h.spent, hs⟩

/-- A token is left locked: a key for the account could not be generated, or `mutecrypt` answered
the command to add a key init message with an error. -/
def Locked (l : List Ev) (e : UErr) : Prop := ∃ pre t, Good pre ∧
  ((e = .random ∧ l = pre ++ [.took .account t]) ∨
    ∃ id mixaddress nymaddress line, line ≠ ready ∧ e = .crypt line ∧
      l = pre ++ [.took .message t, .sent (.keyinit id mixaddress nymaddress t), .said (.text line)])

/-- What is proved about each part. -/
def Tok (l : List Ev) : R α → Prop
  | .ok _ => Good l
  | .err e => Good l ∨ Locked l e
  | .hang => True

theorem Tok.bind {m : M σ α} {k : α → M σ β} (hm : Adds m Tok) (hk : ∀ a, Adds (k a) Tok) : Adds (m >>= k) Tok := by
  refine Adds.bind hm hk ?_ (fun l e h => h) (fun _ _ => trivial)
  intro l1 l2 a r h1 h2
  have h1 : Good l1 := h1
  cases r with
  | ok b => exact h1.append h2
  | err e =>
    rcases h2 with h2 | ⟨pre, t, hp, h2⟩
    · exact .inl (h1.append h2)
    · refine .inr ⟨l1 ++ pre, t, h1.append hp, ?_⟩
      rcases h2 with ⟨he, rfl⟩ | ⟨i, x, y, line, h3, h4, rfl⟩
      · exact .inl ⟨he, by rw [List.append_assoc]⟩
      · exact .inr ⟨i, x, y, line, h3, h4, by rw [List.append_assoc]⟩
  | hang => trivial

theorem Tok.good {l : List Ev} (h : Good l) (r : R α) : Tok l r := by
  cases r with
  | ok a => exact h
  | err e => exact .inl h
  | hang => trivial

theorem Tok.empty {m : M σ α} {P : R α → Prop} (h : Adds m fun l r => l = [] ∧ P r) : Adds m Tok := h.mono fun l r h => by
  obtain ⟨rfl, _⟩ := h
  exact .good .nil r

theorem tok_send_expect (E : Env σ) (c : Cmd) (want : Bytes) (hc : c.token = none) {k : Unit → M σ α} (hk : ∀ u, Adds (k u) Tok) :
    Adds (send E c >>= fun _ => expect E want >>= k) Tok := by
  have h : Adds (send E c >>= fun _ => expect E want) Tok := by
    refine (adds_send E c).bind (fun _ => adds_expect E want) ?_ ?_ ?_
    · rintro l1 l2 a r ⟨rfl, _⟩ ⟨x, rfl⟩
      exact .good (.quiet (fun e he => by
        rcases List.mem_cons.mp he with rfl | he
        · exact hc
        · obtain rfl := List.mem_singleton.mp he; trivial) (fun e he => by cases he; rfl)) r
    · rintro l e ⟨rfl, _⟩
      exact .inl (.quiet (fun e he => by obtain rfl := List.mem_singleton.mp he; exact hc) (fun e he => by cases he; rfl))
    · intro l h; trivial
  have h2 := Tok.bind h hk
  have e : (send E c >>= fun _ => expect E want >>= k) = ((send E c >>= fun _ => expect E want) >>= k) := by
    funext s
    show andThen (send E c) (fun _ => andThen (expect E want) k) s = andThen (andThen (send E c) fun _ => expect E want) k s
    unfold andThen
    cases send E c s with
    | mk s1 r => cases r <;> rfl
  rw [e]; exact h2

theorem tok_prepare (E : Env σ) (id : Bytes) : Adds (prepare E id) Tok :=
  Tok.bind (Tok.empty (adds_check _ _)) fun _ => tok_send_expect E _ _ rfl fun _ => tok_send_expect E _ _ rfl fun _ => Tok.empty (adds_call _ _)

/-- A token that is taken, used up or not, and then deleted or given back. -/
theorem good_use {u : Usage} {t : Bytes} {c : Cmd} (hc : c.token = some t) {l : List Ev} (hl : ∀ e ∈ l, isSaid e = true) {y : Line} :
    (y = .text ready ∨ y = .eof → Good (.took u t :: .sent c :: .said y :: (l ++ [.gone t]))) ∧
    (y ≠ .text ready ∧ y ≠ .eof → Good (.took u t :: .sent c :: .said y :: (l ++ [.freed t]))) := by
  have hq := quiet_said hl
  have hb : ∀ x, (l.countP (takes x) = 0 ∧ l.count (.gone x) = 0 ∧ l.count (.freed x) = 0) := fun x =>
    ⟨List.countP_eq_zero.mpr fun e he => by have := hl e he; cases e <;> simp_all [takes, isSaid],
      List.count_eq_zero.mpr fun he => by simpa [isSaid] using hl _ he, List.count_eq_zero.mpr fun he => by simpa [isSaid] using hl _ he⟩
  have hs : ∀ x e, isSaid e = false → served x [e] = 0 → served x (.said y :: (l ++ [e])) = 0 := fun x e he h0 => by
    have : (Ev.said y :: (l ++ [e])) = (.said y :: l) ++ [e] := rfl
    rw [this, served_append x _ _ (fun e' h => by cases h; exact he), h0]
    rw [Quiet.served (l := .said y :: l) (quiet_said fun e' he' => by
      rcases List.mem_cons.mp he' with rfl | he'
      · rfl
      · exact hl _ he')]
  constructor
  · intro hy
    refine ⟨fun x => ?_, fun x => ?_, fun e he => by cases he; rfl⟩
    · obtain ⟨h1, h2, h3⟩ := hb x
      by_cases hx : t = x <;> simp [List.countP_cons, List.count_cons, List.countP_append, List.count_append, takes, h1, h2, h3, hx]
    · have := hs x (.gone t) rfl rfl
      obtain ⟨h1, h2, h3⟩ := hb x
      simp only [served, this, hc]
      by_cases hx : t = x
      · rcases hy with rfl | rfl <;> simp [List.count_cons, List.count_append, h2, hx]
      · simp [List.count_cons, List.count_append, h2, hx]
  · rintro ⟨hy1, hy2⟩
    refine ⟨fun x => ?_, fun x => ?_, fun e he => by cases he; rfl⟩
    · obtain ⟨h1, h2, h3⟩ := hb x
      by_cases hx : t = x <;> simp [List.countP_cons, List.count_cons, List.countP_append, List.count_append, takes, h1, h2, h3, hx]
    · have := hs x (.freed t) rfl rfl
      obtain ⟨h1, h2, h3⟩ := hb x
      simp only [served, this, hc]
      simp [List.count_cons, List.count_append, h2, hy1, hy2]

/-- A command that could not be written. -/
theorem good_unsent {u : Usage} {t : Bytes} {c : Cmd} : Good [.took u t, .sent c, .freed t] := by
  refine ⟨fun x => ?_, fun x => ?_, fun e he => by cases he; rfl⟩
  · by_cases hx : t = x <;> simp [List.countP_cons, List.count_cons, takes, hx]
  · simp [served, List.count_cons]

theorem tok_register (E : Env σ) (n : Nat) (id owner : Bytes) : Adds (register E n id owner) Tok := by
  -- what follows after the token was taken
  have hk : ∀ t, Adds (do
      let ok ← trySend E (.register id t)
      if !ok then
        unlock E t
        throw .pipe
      else
        match ← untilReady E n .fine with
        | .broken =>
          unlock E t
          throw .pipe
        | .bad l =>
          unlock E t
          send E (.delete id)
          expect E ready
          ret (some l)
        | .fine =>
          del E t
          ret none : M σ (Option Bytes)) fun l r => Tok (.took .uid t :: l) r := by
    intro t
    refine (adds_trySend E _).bind (Q := fun b l r => Tok (.took .uid t :: .sent (.register id t) :: l) r) (fun b => ?_) ?_ ?_ ?_
    · cases b with
      | false =>
        refine (adds_unlock E t).bind (fun _ => adds_throw _) ?_ ?_ ?_
        · rintro l1 l2 a r ⟨rfl, _⟩ ⟨rfl, rfl⟩
          exact .inl good_unsent
        · rintro l e ⟨_, h⟩; cases h
        · rintro l ⟨_, h⟩; cases h
      | true =>
        refine (adds_until E n .fine).bind (Q := fun x l r => ∀ (y : Line) (l' : List Ev), (∀ e ∈ l', isSaid e = true) →
          (x = .fine → y = .text ready ∨ y = .eof) → (x ≠ .fine → y ≠ .text ready ∧ y ≠ .eof) →
          Tok (.took .uid t :: .sent (.register id t) :: .said y :: (l' ++ l)) r) (fun x => ?_) ?_ ?_ ?_
        · cases x with
          | fine =>
            refine (adds_del E t).bind (fun _ => adds_ret _) ?_ ?_ ?_
            · rintro l1 l2 a r ⟨rfl, _⟩ ⟨rfl, rfl⟩ y l' hl h1 _
              exact (good_use (u := .uid) (t := t) (c := .register id t) rfl hl).1 (h1 rfl)
            · rintro l e ⟨_, h⟩; cases h
            · rintro l ⟨_, h⟩; cases h
          | bad b =>
            refine (adds_unlock E t).bind (fun _ => tok_send_expect E (.delete id) ready rfl fun _ => Tok.empty (adds_ret _)) ?_ ?_ ?_
            · rintro l1 l2 a r ⟨rfl, _⟩ h y l' hl _ h2
              have g := (good_use (u := .uid) (t := t) (c := .register id t) rfl hl).2 (h2 (by nofun))
              have e : (Ev.took .uid t :: .sent (.register id t) :: .said y :: (l' ++ ([.freed t] ++ l2))) =
                  (.took .uid t :: .sent (.register id t) :: .said y :: (l' ++ [.freed t])) ++ l2 := by simp
              rw [e]
              cases r with
              | ok v => exact g.append h
              | err v =>
                rcases h with h | ⟨pre, t', hp, h⟩
                · exact .inl (g.append h)
                · refine .inr ⟨_ ++ pre, t', g.append hp, ?_⟩
                  rcases h with ⟨he, rfl⟩ | ⟨i, x, y, line, h3, h4, rfl⟩
                  · exact .inl ⟨he, by rw [List.append_assoc]⟩
                  · exact .inr ⟨i, x, y, line, h3, h4, by rw [List.append_assoc]⟩
              | hang => trivial
            · rintro l e ⟨_, h⟩; cases h
            · rintro l ⟨_, h⟩; cases h
          | broken =>
            refine (adds_unlock E t).bind (fun _ => adds_throw _) ?_ ?_ ?_
            · rintro l1 l2 a r ⟨rfl, _⟩ ⟨rfl, rfl⟩ y l' hl _ h2
              exact .inl ((good_use (u := .uid) (t := t) (c := .register id t) rfl hl).2 (h2 (by nofun)))
            · rintro l e ⟨_, h⟩; cases h
            · rintro l ⟨_, h⟩; cases h
        · rintro l1 l2 x r ⟨h1, h2, h3, h4, h5⟩ h
          cases x with
          | fine =>
            obtain ⟨_, y, l', hy, rfl⟩ := h3 rfl
            exact h y l' (fun e he => h1 e (.tail _ he)) (fun _ => hy) (fun h => absurd rfl h)
          | bad b =>
            rcases h4 b rfl with h4 | ⟨y, l', rfl, hy⟩
            · exact absurd rfl h4
            · exact h (.text y) l' (fun e he => h1 e (.tail _ he)) nofun (fun _ => ⟨fun h => hy (by injection h), nofun⟩)
          | broken =>
            rcases h5 rfl with h5 | ⟨y, l', rfl, hy⟩
            · cases h5
            · exact h y l' (fun e he => h1 e (.tail _ he)) nofun (fun _ => hy)
        · rintro l e ⟨_, h, _⟩; exact absurd rfl (h e)
        · intro l _; trivial
    · rintro l1 l2 a r ⟨rfl, _⟩ h
      exact h
    · rintro l e ⟨_, _, h⟩; cases h
    · rintro l ⟨_, _, h⟩; cases h
  refine (adds_take E .uid owner).bind hk ?_ ?_ ?_
  · rintro l1 l2 t r (⟨_, h⟩ | ⟨t', rfl, h⟩) h2
    · cases h
    · injection h with h; subst h
      exact h2
  · rintro l e (⟨rfl, h⟩ | ⟨_, _, h⟩)
    · exact .inl .nil
    · cases h
  · intro l _; trivial

theorem tok_addKeyInit (E : Env σ) (id mixaddress nymaddress owner : Bytes) : Adds (addKeyInit E id mixaddress nymaddress owner) Tok := by
  have hk : ∀ t, Adds (do
      let ok ← trySend E (.keyinit id mixaddress nymaddress t)
      if !ok then
        unlock E t
        throw .pipe
      else
        match ← scan E with
        | .text l => if l = ready then del E t else throw (.crypt l)
        | .eof => del E t
        | .fail =>
          unlock E t
          throw .pipe
        | .block => fun s => (s, .hang) : M σ Unit) fun l r => Tok (.took .message t :: l) r := by
    intro t
    have hc : (Cmd.keyinit id mixaddress nymaddress t).token = some t := rfl
    refine (adds_trySend E _).bind (Q := fun b l r => Tok (.took .message t :: .sent (.keyinit id mixaddress nymaddress t) :: l) r) (fun b => ?_) ?_ ?_ ?_
    · cases b with
      | false =>
        refine (adds_unlock E t).bind (fun _ => adds_throw _) ?_ ?_ ?_
        · rintro l1 l2 a r ⟨rfl, _⟩ ⟨rfl, rfl⟩
          exact .inl good_unsent
        · rintro l e ⟨_, h⟩; cases h
        · rintro l ⟨_, h⟩; cases h
      | true =>
        refine (adds_scan E).bind (Q := fun y l r => Tok (.took .message t :: .sent (.keyinit id mixaddress nymaddress t) :: .said y :: l) r) (fun y => ?_) ?_ ?_ ?_
        · cases y with
          | text x =>
            show Adds (if x = ready then del E t else throw (.crypt x)) _
            split
            · rename_i hx
              refine (adds_del E t).mono fun l r h => ?_
              obtain ⟨rfl, rfl⟩ := h
              exact (good_use (l := []) hc nofun).1 (.inl (by rw [hx]))
            · rename_i hx
              refine (adds_throw _).mono fun l r h => ?_
              obtain ⟨rfl, rfl⟩ := h
              exact .inr ⟨[], t, .nil, .inr ⟨id, mixaddress, nymaddress, x, hx, rfl, rfl⟩⟩
          | eof =>
            refine (adds_del E t).mono fun l r h => ?_
            obtain ⟨rfl, rfl⟩ := h
            exact (good_use (l := []) hc nofun).1 (.inr rfl)
          | fail =>
            refine (adds_unlock E t).bind (fun _ => adds_throw _) ?_ ?_ ?_
            · rintro l1 l2 a r ⟨rfl, _⟩ ⟨rfl, rfl⟩
              exact .inl ((good_use (l := []) hc nofun).2 ⟨nofun, nofun⟩)
            · rintro l e ⟨_, h⟩; cases h
            · rintro l ⟨_, h⟩; cases h
          | block => exact adds_hang.mono fun l r h => by rw [h.2]; trivial
        · rintro l1 l2 y r ⟨y', rfl, h⟩ h2
          injection h with h; subst h
          exact h2
        · rintro l e ⟨_, _, h⟩; cases h
        · rintro l ⟨_, _, h⟩; cases h
    · rintro l1 l2 a r ⟨rfl, _⟩ h
      exact h
    · rintro l e ⟨_, _, h⟩; cases h
    · rintro l ⟨_, _, h⟩; cases h
  refine (adds_take E .message owner).bind hk ?_ ?_ ?_
  · rintro l1 l2 t r (⟨_, h⟩ | ⟨t', rfl, h⟩) h2
    · cases h
    · injection h with h; subst h
      exact h2
  · rintro l e (⟨rfl, h⟩ | ⟨_, _, h⟩)
    · exact .inl .nil
    · cases h
  · intro l _; trivial

theorem tok_newCrypt (E : Env σ) (n : Nat) (id mixaddress nymaddress : Bytes) : Adds (newCrypt E n id mixaddress nymaddress) Tok :=
  Tok.bind (tok_prepare E id) fun owner => Tok.bind (tok_register E n id owner) fun err =>
    Tok.bind (tok_addKeyInit E id mixaddress nymaddress owner) fun _ => tok_send_expect E _ _ rfl fun _ =>
      Tok.bind (Tok.empty (adds_check _ _)) fun _ => by
        cases err with
        | none => exact Tok.empty (adds_ret _)
        | some l => exact Tok.empty (adds_throw _)

theorem tok_newAccount (E : Env σ) : Adds (newAccount E) Tok := by
  have hk : ∀ t, Adds (do
      let key ← call .random E.key
      match ← ask fun w => E.load w E.default key t with
      | none =>
        note (.refused E.default key t)
        unlock E t
        throw .pay
      | some server =>
        note (.paid E.default key t)
        del E t
        ret (key, server) : M σ (Bytes × Bytes)) fun l r => Tok (.took .account t :: l) r := by
    intro t
    refine (adds_call _ _).bind (Q := fun _ l r => Tok (.took .account t :: l) r) (fun key => ?_) ?_ ?_ ?_
    · refine (adds_ask _).bind (Q := fun _ l r => Tok (.took .account t :: l) r) (fun o => ?_) ?_ ?_ ?_
      · cases o with
        | none =>
          refine (adds_note _).bind (Q := fun _ l r => l = [.freed t] ∧ r = .err .pay) (fun _ => (adds_unlock E t).bind (fun _ => adds_throw _) ?_ ?_ ?_) ?_ ?_ ?_
          · rintro l1 l2 a r ⟨rfl, _⟩ ⟨rfl, rfl⟩; exact ⟨rfl, rfl⟩
          · rintro l e ⟨_, h⟩; cases h
          · rintro l ⟨_, h⟩; cases h
          · rintro l1 l2 a r ⟨rfl, _⟩ ⟨rfl, rfl⟩
            refine .inl ⟨fun x => ?_, fun x => ?_, fun e he => by cases he; rfl⟩
            · by_cases hx : t = x <;> simp [List.countP_cons, List.count_cons, takes, hx]
            · simp [served, List.count_cons]
          · rintro l e ⟨_, h⟩; cases h
          · rintro l ⟨_, h⟩; cases h
        | some server =>
          refine (adds_note _).bind (Q := fun _ l r => l = [.gone t] ∧ r = .ok (key, server)) (fun _ => (adds_del E t).bind (fun _ => adds_ret _) ?_ ?_ ?_) ?_ ?_ ?_
          · rintro l1 l2 a r ⟨rfl, _⟩ ⟨rfl, rfl⟩; exact ⟨rfl, rfl⟩
          · rintro l e ⟨_, h⟩; cases h
          · rintro l ⟨_, h⟩; cases h
          · rintro l1 l2 a r ⟨rfl, _⟩ ⟨rfl, rfl⟩
            refine ⟨fun x => ?_, fun x => ?_, fun e he => by cases he; rfl⟩
            · by_cases hx : t = x <;> simp [List.countP_cons, List.count_cons, takes, hx]
            · by_cases hx : t = x <;> simp [served, List.count_cons, hx]
          · rintro l e ⟨_, h⟩; cases h
          · rintro l ⟨_, h⟩; cases h
      · rintro l1 l2 a r ⟨rfl, _⟩ h; exact h
      · rintro l e ⟨_, _, h⟩; cases h
      · rintro l ⟨_, _, h⟩; cases h
    · rintro l1 l2 a r ⟨rfl, _⟩ h; exact h
    · rintro l e ⟨rfl, h | ⟨_, h⟩⟩
      · injection h with h; subst h
        exact .inr ⟨[], t, .nil, .inl ⟨rfl, rfl⟩⟩
      · cases h
    · rintro l ⟨_, h | ⟨_, h⟩⟩ <;> cases h
  refine (adds_take E .account []).bind hk ?_ ?_ ?_
  · rintro l1 l2 t r (⟨_, h⟩ | ⟨t', rfl, h⟩) h2
    · cases h
    · injection h with h; subst h
      exact h2
  · rintro l e (⟨rfl, h⟩ | ⟨_, _, h⟩)
    · exact .inl .nil
    · cases h
  · intro l _; trivial

theorem tok_uidNew (E : Env σ) (I : Ids) (n : Nat) (unmapped fullName : Bytes) (minDelay maxDelay : Int) :
    Adds (uidNew E I n unmapped fullName minDelay maxDelay) Tok := by
  unfold uidNew
  split
  · exact Tok.empty (adds_throw _)
  refine Tok.bind (Tok.empty (adds_check _ _)) fun _ => Tok.bind (Tok.empty (adds_read _)) fun r => ?_
  obtain ⟨known, _⟩ := r
  simp only
  split
  · exact Tok.empty (adds_throw _)
  refine Tok.bind (Tok.empty (adds_ask _)) fun found => ?_
  split
  · exact Tok.empty (adds_throw _)
  refine Tok.bind (tok_newAccount E) fun a => Tok.bind (Tok.empty (adds_call _ _)) fun _ => Tok.bind (Tok.empty (adds_call _ _)) fun b =>
    Tok.bind (tok_newCrypt E n _ _ _) fun _ => Tok.bind (Tok.empty (adds_write _)) fun _ => Tok.bind (Tok.empty (adds_write _)) fun _ =>
      Tok.bind (Tok.empty (adds_read _)) fun active => ?_
  split
  · exact Tok.empty (adds_write _)
  · exact Tok.empty (adds_ret _)

/-! ### C108: tokens are settled -/

/-- When the attempt to make a user ID is over, each token that was taken from the wallet is deleted
if a server took it, as far as the control engine can tell, and available again otherwise. There
are two exceptions: no key could be generated for the account, or `mutecrypt` answered the command
to add a key init message with an error. Then one token stays locked. -/
theorem C108_settled_partial (E : Env σ) (I : Ids) (n : Nat) (unmapped fullName : Bytes) (minDelay maxDelay : Int) (s : St σ) :
    ∃ new, (uidNew E I n unmapped fullName minDelay maxDelay s).1.log = s.log ++ new ∧
      ((uidNew E I n unmapped fullName minDelay maxDelay s).2 = .ok () → Balanced new ∧ Spent new) ∧
      (∀ e, (uidNew E I n unmapped fullName minDelay maxDelay s).2 = .err e → (Balanced new ∧ Spent new) ∨
        ∃ pre t, Balanced pre ∧ Spent pre ∧ ((e = .random ∧ new = pre ++ [.took .account t]) ∨
          ∃ id mixaddress nymaddress line, line ≠ ready ∧ e = .crypt line ∧
            new = pre ++ [.took .message t, .sent (.keyinit id mixaddress nymaddress t), .said (.text line)])) := by
  obtain ⟨new, h1, h2⟩ := tok_uidNew E I n unmapped fullName minDelay maxDelay s
  refine ⟨new, h1, fun h => ?_, fun e h => ?_⟩
  · rw [h] at h2
    have h2 : Good new := h2
    exact ⟨h2.1, h2.2⟩
  · rw [h] at h2
    rcases h2 with h2 | ⟨pre, t, hp, h2⟩
    · exact .inl ⟨h2.1, h2.2⟩
    · exact .inr ⟨pre, t, hp.1, hp.2, h2⟩

end Verif.Ctrl.Uid

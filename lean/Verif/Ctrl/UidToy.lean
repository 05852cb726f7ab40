/-
C108 and C109 on concrete worlds: what the theorems say about a good run, and where the two
properties fail.
-/
import Verif.Ctrl.UidMade

namespace Verif.Ctrl.Uid.Toy
open Verif.Sql Verif.Msgdb Verif.Ctrl.Uid

deriving instance DecidableEq for Except

/-- A world: the number of tokens that the wallet gave out, the keys that `mutecrypt` has, and the identities
that are registered at the key server. -/
structure W where
  tokens : Nat
  keys : List Bytes
  registered : List Bytes
  deriving DecidableEq, Repr

/-- All calls succeed. Tokens differ in length. -/
def env : Env W where
  domain := fun _ => [2]
  sync := fun w _ => (w, true)
  search := fun w id => (w, decide (id ∈ w.registered))
  token := fun w _ _ => ({ w with tokens := w.tokens + 1 }, some (List.replicate w.tokens 0))
  key := fun w => (w, some [7])
  secret := fun w => (w, some [8])
  default := [9]
  load := fun w _ _ _ => (w, some [10])
  address := fun w _ _ _ _ _ => (w, some ([11], [12]))
  start := fun w => (w, true)
  send := fun w _ => (w, true)
  line := fun w => (w, .eof)
  owner := fun w => (w, some [13])
  wait := fun w => (w, true)
  unlock := fun w _ => w
  del := fun w _ => w
  deleteKey := fun w _ => (w, true)
  deleteAccount := fun w _ _ => (w, true)

/-- The error text "no". -/
def no : Bytes := [110, 111]

/-- The commands of `mutecrypt` (cryptengine/uid.go, cryptengine/keyinit.go), with a result of the
registration: whether the server registers the identity and what `mutecrypt` does then. -/
def run (reg : Bool) (d : Did) (w : W) : Cmd → W × Did
  | .generate id => ({ w with keys := id :: w.keys }, .ok)
  | .caps _ => (w, .ok)
  | .register id _ => if id ∈ w.keys then ({ w with registered := if reg then id :: w.registered else w.registered }, d) else (w, .failed no [])
  | .delete id => if id ∈ w.keys then ({ w with keys := w.keys.filter (· ≠ id) }, .ok) else (w, .failed no [])
  | .keyinit id _ _ _ => if id ∈ w.keys then (w, .ok) else (w, .failed no [])
  | .quit => (w, .ok)

def begin : St (W × Proc) := ⟨(⟨0, [], []⟩, .fresh), Db.new, []⟩

def make (reg : Bool) (d : Did) (s : St (W × Proc)) : St (W × Proc) × R Unit :=
  uidNew (withProc env (run reg d)) plainI 9 [1, 64, 2] [77] 1 2 s


theorem eq_of_snd {α β : Type} {x : α × β} {b : β} (h : x.2 = b) : x = (x.1, b) := by
  cases x; cases h; rfl

/-- With a registration that succeeds the user ID is made. -/
theorem good : (make true .ok begin).2 = .ok () := by decide +kernel

/-- The hypotheses of `C109_made_partial` are met. -/
example : Reached plainI begin.db ∧ make true .ok begin = ((make true .ok begin).1, .ok ()) := ⟨⟨[], rfl⟩, eq_of_snd good⟩

/-- What that run leaves behind. -/
example : (make true .ok begin).1.db.getNym plainI [1, 64, 2] = .ok ([1, 64, 2], [77]) ∧ (make true .ok begin).1.db.getValue activeKey = .ok [1, 64, 2] ∧
    (make true .ok begin).1.w.1.registered = [[1, 64, 2]] := by decide +kernel

example : ∀ w c f m, (run true .ok w c).2 = .failed f m → f ≠ ready := by
  intro w c f m h
  cases c <;> simp only [run] at h <;> (try cases h)
  all_goals (split at h <;> cases h; decide)

/-- The hypotheses of `C109_failed_unchanged` are met. -/
example : Reached plainI begin.db ∧ (make false (.failed no []) begin).2 ≠ .ok () := ⟨⟨[], rfl⟩, by decide +kernel⟩

/-- The tokens of a good run: three taken, three spent. -/
example : (make true .ok begin).1.log.countP (fun e => match e with | .took _ _ => true | _ => false) = 3 ∧
    (make true .ok begin).1.log.countP (fun e => match e with | .gone _ => true | _ => false) = 3 := by decide +kernel

/-! ### what fails -/

/-- Many attempts, one after the other. -/
def attempts (reg : Bool) (d : Did) : Nat → St (W × Proc) → St (W × Proc)
  | 0, s => s
  | n + 1, s => attempts reg d n (make reg d s).1

def isTook (u : Usage) : Ev → Bool
  | .took u' _ => u' == u
  | _ => false

def isEnd : Ev → Bool
  | .gone _ => true
  | .freed _ => true
  | _ => false

def isPaid : Ev → Bool
  | .paid _ _ _ => true
  | _ => false

theorem refused_once (n : Nat) (p : Proc) (log : List Ev) : ∃ p' new, make false (.failed no []) ⟨(⟨n, [], []⟩, p), Db.new, log⟩ = (⟨(⟨n + 3, [], []⟩, p'), Db.new, log ++ new⟩, .err (.crypt no)) ∧
    new.countP (isTook .message) = 1 ∧ new.countP (isTook .uid) = 1 ∧ new.countP (isTook .account) = 1 ∧ new.countP isEnd = 2 ∧ new.countP isPaid = 1 := by
  have h : make false (.failed no []) ⟨(⟨n, [], []⟩, p), Db.new, log⟩ = make false (.failed no []) ⟨(⟨n, [], []⟩, p), Db.new, log⟩ := rfl
  conv at h =>
    rhs
    simp [make, uidNew, bind, andThen, plainI, check, read, ask, call, newAccount, takeToken, note, withProc, env, Db.getNym, Ids.isMapped, Db.new, first, select, ret, throw, newCrypt, prepare,
      register, send, trySend, expect, scan, Proc.turn, Proc.fresh, run, untilReady, addKeyInit, unlock, del, no, ready, quitting]
  exact ⟨_, _, h, rfl, rfl, rfl, rfl, rfl⟩

theorem refused_often : ∀ (k n : Nat) (p : Proc) (log : List Ev), ∃ p' new, attempts false (.failed no []) k ⟨(⟨n, [], []⟩, p), Db.new, log⟩ = ⟨(⟨n + 3 * k, [], []⟩, p'), Db.new, log ++ new⟩ ∧
    new.countP (isTook .message) = k ∧ new.countP (isTook .uid) = k ∧ new.countP (isTook .account) = k ∧ new.countP isEnd = 2 * k ∧ new.countP isPaid = k
  | 0, n, p, log => ⟨p, [], by simp [attempts], rfl, rfl, rfl, rfl, rfl⟩
  | k + 1, n, p, log => by
    obtain ⟨p1, l1, h1, a1, b1, c1, d1, e1⟩ := refused_once n p log
    obtain ⟨p2, l2, h2, a2, b2, c2, d2, e2⟩ := refused_often k (n + 3) p1 (log ++ l1)
    refine ⟨p2, l1 ++ l2, ?_, ?_, ?_, ?_, ?_, ?_⟩
    · show attempts _ _ k (make _ _ _).1 = _
      rw [h1, h2, List.append_assoc, show n + 3 + 3 * k = n + 3 * (k + 1) by omega]
    all_goals rw [List.countP_append]; omega

/-- Tokens are lost when a registration is refused: after `uid delete` there is no key for the key init
message, and the error of that command returns without giving the message token back. After `k`
refused attempts, `k` message tokens are locked for ever: of `3 * k` tokens that were taken only `2 * k`
were deleted or given back. On top of that, `k` accounts were paid for and their keys are lost. -/
theorem C108_settled_violated (k : Nat) : ∃ E : Env (W × Proc), ∃ s : St (W × Proc), ∃ f : Nat → St (W × Proc), f 0 = s ∧ s.log = [] ∧
    (∀ i, uidNew E plainI 9 [1, 64, 2] [77] 1 2 (f i) = (f (i + 1), .err (.crypt no))) ∧
    (f k).log.countP (isTook .message) = k ∧ (f k).log.countP (isTook .uid) = k ∧ (f k).log.countP (isTook .account) = k ∧
    (f k).log.countP isEnd = 2 * k ∧ (f k).log.countP isPaid = k := by
  have hsucc : ∀ i s, attempts false (.failed no []) (i + 1) s = (make false (.failed no []) (attempts false (.failed no []) i s)).1 := by
    intro i
    induction i with
    | zero => intro s; rfl
    | succ i ih => intro s; exact ih _
  refine ⟨withProc env (run false (.failed no [])), begin, fun i => attempts false (.failed no []) i begin, rfl, rfl, ?_, ?_⟩
  · intro i
    obtain ⟨p, l, h, _⟩ := refused_often i 0 .fresh []
    obtain ⟨p', l', h', _⟩ := refused_once (0 + 3 * i) p ([] ++ l)
    simp only []
    rw [hsucc, show begin = ⟨(⟨0, [], []⟩, .fresh), Db.new, []⟩ from rfl, h, h']
    unfold make at h'
    exact h'
  · obtain ⟨p, l, h, a, b, c, d, e⟩ := refused_often k 0 .fresh []
    rw [← show begin = ⟨(⟨0, [], []⟩, .fresh), Db.new, []⟩ from rfl] at h
    simp only [h, List.nil_append]
    exact ⟨a, b, c, d, e⟩

/-- When `mutecrypt` dies in the registration, the control engine takes the end of its output for
success: it deletes the token for the user ID and then a message token, though no command was
executed successfully. -/
theorem C108_spent_violated : (make false (.died []) begin).2 = .err .wait ∧
    (make false (.died []) begin).1.w.2.done = [(.generate [1, 64, 2], .ok), (.caps [2], .ok), (.register [1, 64, 2] [0], .died [])] ∧
    .took .uid [0] ∈ (make false (.died []) begin).1.log ∧ .gone [0] ∈ (make false (.died []) begin).1.log ∧
    .took .message [0, 0] ∈ (make false (.died []) begin).1.log ∧ .gone [0, 0] ∈ (make false (.died []) begin).1.log := by
  decide +kernel

/-- "READY." and "QUITTING" as lines of the error text of the registration. The key server writes
this text (C109). -/
def lies : Did := .failed ready [ready, quitting]

/-- The lines of the answers are not counted: if the error text of the registration, which comes from
the key server, has the right lines, the user ID is stored and success is reported though the
registration failed and the key server does not know the identity. -/
theorem C109_made_violated : (make false lies begin).2 = .ok () ∧ (make false lies begin).1.w.1.registered = [] ∧
    (.register [1, 64, 2] [0], lies) ∈ (make false lies begin).1.w.2.done ∧ (make false lies begin).1.db.getNym plainI [1, 64, 2] = .ok ([1, 64, 2], [77]) := by
  decide +kernel

/-- When the answer of the key server is lost after it registered the identity, the key is deleted
and nobody can register the identity again: every later attempt, in every world in which the identity is
registered, ends with "taken". -/
theorem C109_lost_violated : (make true (.failed no []) begin).2 = .err (.crypt no) ∧ (make true (.failed no []) begin).1.w.1.registered = [[1, 64, 2]] ∧
    (make true (.failed no []) begin).1.w.1.keys = [] ∧
    ∀ (s : St (W × Proc)) (reg : Bool) (d : Did), [1, 64, 2] ∈ s.w.1.registered → s.db.getNym plainI [1, 64, 2] = .ok ([], []) → (make reg d s).2 = .err .taken := by
  refine ⟨by decide +kernel, by decide +kernel, by decide +kernel, ?_⟩
  intro s reg d h hn
  have hm : plainI.map [1, 64, 2] = some [1, 64, 2] := rfl
  simp only [make, uidNew, hm, bind, andThen, check, read, ask, withProc, env, hn, decide_eq_true h, throw, ne_eq, not_true_eq_false, if_false, if_true]

end Verif.Ctrl.Uid.Toy

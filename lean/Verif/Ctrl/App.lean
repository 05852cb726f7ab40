/-
The app mode (ctrlengine/app.go): a web server with a login page and static pages that are protected by
a cookie. Requests are served concurrently; a login consists of several steps on the shared engine.

Simplifications: reading a page and storing the new secret are atomic (they are guarded by a mutex); the
expiry date of the cookie is left to the browser and not looked at by the server; the parts of `prepare`
after the opening of the database are one step that succeeds or fails.
-/
import Verif.Util.Base64

namespace Verif.Ctrl.App

/-- Where a login is (app.go:48-84, ctrlengine.go:231-296, 1381-1407). -/
inductive Phase
  | idle
  /-- the form was parsed, the passphrase is going to be stored (app.go:60-61) -/
  | got (pw : Bytes)
  /-- in `prepare`, before the test if the database is open (ctrlengine.go:267) -/
  | check (pw : Bytes)
  /-- before `msgdb.Open` (ctrlengine.go:1402) -/
  | opening (pw : Bytes)
  /-- configuration, updates and wallet (ctrlengine.go:274-291) -/
  | rest (pw : Bytes)
  /-- `prepare` succeeded (app.go:67) -/
  | grant (pw : Bytes)
  deriving DecidableEq

/-- What can be observed: a passphrase was sent, a login was successful and a secret was given out in a cookie,
a login was refused, a page was requested with the value of the cookie, if there was one, and served or
refused. -/
inductive Ev
  | posted (pw : Bytes)
  | granted (pw secret : Bytes)
  | denied (pw : Bytes)
  | served (cookie : Option Bytes)
  | refused (cookie : Option Bytes)
  deriving DecidableEq

/-- The engine (`ce.msgDB`, `ce.passphrase`), the secret (app.go:39-42), the logins that are going on and what
was observed, newest first. -/
structure State where
  opened : Bool
  pass : Option Bytes
  secret : Bytes
  login : Nat → Phase
  log : List Ev

/-- After `appStart` (app.go:116-157); the command does not open the database (ctrlengine.go:528-533). -/
def start : State := ⟨false, none, [], fun _ => .idle, []⟩

/-- The login `i` goes on. -/
def State.to (s : State) (i : Nat) (p : Phase) : State := { s with login := fun j => if j = i then p else s.login j }

/-- The test of a request for a page (app.go:92-111). -/
def allowed (secret : Bytes) : Option Bytes → Bool
  | none => false
  | some c => if c ≠ [] ∧ c ≠ secret then false else true

/-- `RandPass` (cipher/randpass.go:15-21). -/
def randPass (r : Bytes) : Bytes := Base64.encode r

/-- One step, for a database with the passphrase `P`. -/
inductive Step (P : Bytes) : State → State → Prop
  /- a form arrives (app.go:55-60); a form without the field panics, which ends only the request -/
  | post (s i pw) : s.login i = .idle → Step P s { s.to i (.got pw) with log := .posted pw :: s.log }
  /- app.go:61 -/
  | set (s i pw) : s.login i = .got pw → Step P s { s.to i (.check pw) with pass := some pw }
  /- ctrlengine.go:267 -/
  | closed (s i pw) : s.login i = .check pw → s.opened = false → Step P s (s.to i (.opening pw))
  | isOpen (s i pw) : s.login i = .check pw → s.opened = true → Step P s (s.to i (.rest pw))
  /- ctrlengine.go:1402-1405; opening can fail for other reasons. The variable is assigned in any case. -/
  | opens (s i pw) : s.login i = .opening pw → s.pass = some P → Step P s { s.to i (.rest pw) with opened := true }
  | opensNot (s i pw) : s.login i = .opening pw →
      Step P s { s.to i .idle with opened := false, log := .denied pw :: s.log }
  /- ctrlengine.go:274-291 -/
  | works (s i pw) : s.login i = .rest pw → Step P s (s.to i (.grant pw))
  | fails (s i pw) : s.login i = .rest pw → Step P s { s.to i .idle with log := .denied pw :: s.log }
  /- app.go:69-82 -/
  | grant (s i pw r) : s.login i = .grant pw → r.length = 32 →
      Step P s { s.to i .idle with secret := randPass r, log := .granted pw (randPass r) :: s.log }
  /- app.go:90-113 -/
  | serve (s c) : allowed s.secret c = true → Step P s { s with log := .served c :: s.log }
  | refuse (s c) : allowed s.secret c = false → Step P s { s with log := .refused c :: s.log }

/-- The executions. -/
inductive Run (P : Bytes) : State → Prop
  | start : Run P start
  | step (s s') : Run P s → Step P s s' → Run P s'

/-! ### specification -/

/-- The secret given out last. -/
def latest : List Ev → Option Bytes
  | [] => none
  | .granted _ c :: _ => some c
  | _ :: l => latest l

/-- The newest event and those before it, for every prefix of the history. -/
def Always (p : Ev → List Ev → Prop) (l : List Ev) : Prop := ∀ a e b, l = a ++ e :: b → p e b

theorem Always.nil {p : Ev → List Ev → Prop} : Always p [] := by
  intro a e b h
  cases a <;> cases h

theorem Always.cons {p : Ev → List Ev → Prop} {e : Ev} {l : List Ev} (h : Always p l) (he : p e l) : Always p (e :: l) := by
  intro a x b h'
  cases a with
  | nil => injection h' with h1 h2; subst h1 h2; exact he
  | cons y a => injection h' with _ h2; exact h a x b h2

/-! ### the invariant -/

theorem randPass_ne_nil {r : Bytes} (h : r.length = 32) : randPass r ≠ [] := by
  intro he
  have := Base64.encode_length r
  unfold randPass at he
  rw [he, h] at this
  cases this

/-- The passphrase of a login. -/
def Phase.pw : Phase → Option Bytes
  | .idle => none
  | .got p | .check p | .opening p | .rest p | .grant p => some p

/-- The database was open when the login passed the test. -/
def Phase.past : Phase → Bool
  | .rest _ | .grant _ => true
  | _ => false

/-- What holds for every event, given the ones before it. -/
def Good (P : Bytes) : Ev → List Ev → Prop
  | .granted pw _, b => .posted P ∈ b ∧ .posted pw ∈ b
  | .served c, b => ∃ v, c = some v ∧ (v = [] ∨ latest b = some v)
  | .refused c, b => c ≠ some [] ∧ ∀ v, c = some v → latest b ≠ some v
  | _, _ => True

structure Inv (P : Bytes) (s : State) : Prop where
  secret : s.secret = (latest s.log).getD []
  fresh : latest s.log ≠ some []
  pass : ∀ p, s.pass = some p → .posted p ∈ s.log
  pw : ∀ i p, (s.login i).pw = some p → .posted p ∈ s.log
  opened : s.opened = true → .posted P ∈ s.log
  past : ∀ i, (s.login i).past = true → .posted P ∈ s.log
  good : Always (Good P) s.log

theorem inv_start (P : Bytes) : Inv P start :=
  ⟨rfl, by simp [start, latest], by simp [start], by simp [start, Phase.pw], by simp [start], by simp [start, Phase.past], Always.nil⟩

/-- A login goes to another phase and the history becomes longer by an event without a secret. -/
theorem Inv.log {P : Bytes} {s : State} (h : Inv P s) {e : Ev} (he : latest (e :: s.log) = latest s.log) (hg : Good P e s.log) :
    Inv P { s with log := e :: s.log } :=
  ⟨by simp only [he]; exact h.secret, by simp only [he]; exact h.fresh, fun p hp => .tail _ (h.pass p hp), fun i p hp => .tail _ (h.pw i p hp),
    fun ho => .tail _ (h.opened ho), fun i hi => .tail _ (h.past i hi), h.good.cons hg⟩

theorem Inv.to {P : Bytes} {s : State} (h : Inv P s) {i : Nat} {p : Phase} (hp : ∀ x, p.pw = some x → .posted x ∈ s.log)
    (hq : p.past = true → .posted P ∈ s.log) : Inv P (s.to i p) := by
  refine ⟨h.secret, h.fresh, h.pass, ?_, h.opened, ?_, h.good⟩
  · intro j x hx
    simp only [State.to] at hx
    split at hx
    · exact hp x hx
    · exact h.pw j x hx
  · intro j hx
    simp only [State.to] at hx
    split at hx
    · exact hq hx
    · exact h.past j hx

theorem step_inv {P : Bytes} {s s' : State} (h : Inv P s) (st : Step P s s') : Inv P s' := by
  cases st with
  | post i pw hi =>
    have h1 := h.log (e := .posted pw) rfl trivial
    refine h1.to (i := i) (p := .got pw) ?_ ?_
    · intro x hx; cases hx; exact .head _
    · intro hx; cases hx
  | set i pw hi =>
    have hm := h.pw i pw (by rw [hi]; rfl)
    have h1 : Inv P { s with pass := some pw } := ⟨h.secret, h.fresh, fun p hp => by cases hp; exact hm, h.pw, h.opened, h.past, h.good⟩
    refine h1.to (i := i) (p := .check pw) ?_ ?_
    · intro x hx; cases hx; exact hm
    · intro hx; cases hx
  | closed i pw hi ho =>
    refine h.to ?_ ?_
    · intro x hx; cases hx; exact h.pw i pw (by rw [hi]; rfl)
    · intro hx; cases hx
  | isOpen i pw hi ho =>
    refine h.to ?_ ?_
    · intro x hx; cases hx; exact h.pw i pw (by rw [hi]; rfl)
    · intro _; exact h.opened ho
  | opens i pw hi hp =>
    have hm := h.pass P hp
    have h1 : Inv P { s with opened := true } := ⟨h.secret, h.fresh, h.pass, h.pw, fun _ => hm, h.past, h.good⟩
    refine h1.to (i := i) (p := .rest pw) ?_ ?_
    · intro x hx; cases hx; exact h.pw i pw (by rw [hi]; rfl)
    · intro _; exact hm
  | opensNot i pw hi =>
    have h1 : Inv P { s with opened := false } := ⟨h.secret, h.fresh, h.pass, h.pw, fun h => by (cases h), h.past, h.good⟩
    have h2 := h1.log (e := .denied pw) rfl trivial
    refine h2.to (i := i) (p := .idle) ?_ ?_
    · intro x hx; cases hx
    · intro hx; cases hx
  | works i pw hi =>
    refine h.to ?_ ?_
    · intro x hx; cases hx; exact h.pw i pw (by rw [hi]; rfl)
    · intro _; exact h.past i (by rw [hi]; rfl)
  | fails i pw hi =>
    have h2 := h.log (e := .denied pw) rfl trivial
    refine h2.to (i := i) (p := .idle) ?_ ?_
    · intro x hx; cases hx
    · intro hx; cases hx
  | grant i pw r hi hr =>
    have h1 : Inv P { s with secret := randPass r, log := .granted pw (randPass r) :: s.log } := by
      refine ⟨rfl, ?_, fun p hp => .tail _ (h.pass p hp), fun i p hp => .tail _ (h.pw i p hp), fun ho => .tail _ (h.opened ho),
        fun i hi => .tail _ (h.past i hi), h.good.cons ⟨h.past i (by rw [hi]; rfl), h.pw i pw (by rw [hi]; rfl)⟩⟩
      intro hx
      injection hx with hx
      exact randPass_ne_nil hr hx
    refine h1.to (i := i) (p := .idle) ?_ ?_
    · intro x hx; cases hx
    · intro hx; cases hx
  | serve c hc =>
    refine h.log rfl ?_
    cases c with
    | none => cases hc
    | some v =>
      refine ⟨v, rfl, ?_⟩
      by_cases hv : v = []
      · exact .inl hv
      · right
        have hs : v = s.secret := by
          simp only [allowed] at hc
          split at hc
          · cases hc
          · rename_i hn
            exact Classical.byContradiction fun hne => hn ⟨hv, hne⟩
        rw [h.secret] at hs
        cases hl : latest s.log with
        | none => rw [hl] at hs; exact absurd hs hv
        | some x => rw [hl] at hs; rw [hs]; rfl
  | refuse c hc =>
    refine h.log rfl ⟨?_, ?_⟩
    · intro hn
      subst hn
      simp [allowed] at hc
    · intro v hv hl
      subst hv
      have hs := h.secret
      rw [hl] at hs
      simp only [allowed] at hc
      rw [hs] at hc
      simp at hc

theorem run_inv {P : Bytes} {s : State} (h : Run P s) : Inv P s := by
  induction h with
  | start => exact inv_start P
  | step s s' _ st ih => exact step_inv ih st

/-! ### C118 -/

/-- **C118** (partial) A page that was requested with a cookie that is not empty was served only if its value is the
secret given out at the latest successful login, for every interleaving of requests. Without a cookie nothing is
served. The property says the same for every cookie, see `C118_empty_cookie_violated`. -/
theorem C118_secret_partial (P : Bytes) (s : State) (h : Run P s) (later earlier : List Ev) (c : Option Bytes)
    (he : s.log = later ++ .served c :: earlier) : ∃ v, c = some v ∧ (v ≠ [] → latest earlier = some v) := by
  obtain ⟨v, hv, hl⟩ := (run_inv h).good _ _ _ he
  exact ⟨v, hv, fun hn => hl.resolve_left hn⟩

/-- **C118** A browser that sends the secret of the latest successful login is not refused. -/
theorem C118_available (P : Bytes) (s : State) (h : Run P s) (later earlier : List Ev) (v : Bytes)
    (he : s.log = later ++ .refused (some v) :: earlier) : latest earlier ≠ some v :=
  ((run_inv h).good _ _ _ he).2 v rfl

/-- **C118** (partial) A login is successful only if the passphrase of the database was sent before, in this request or in
another one. The property demands that it was sent in this request, see `C118_any_passphrase_violated` and
`C118_race_violated`. -/
theorem C118_passphrase_partial (P : Bytes) (s : State) (h : Run P s) (later earlier : List Ev) (pw c : Bytes)
    (he : s.log = later ++ .granted pw c :: earlier) : .posted P ∈ earlier ∧ .posted pw ∈ earlier :=
  (run_inv h).good _ _ _ he

/-- **C118** (finding) A page is served to everybody who sends an empty cookie: before any login, and in every state. -/
theorem C118_empty_cookie_violated (P : Bytes) :
    (∃ s, Run P s ∧ s.log = [.served (some [])]) ∧
    ∀ s, Run P s → ∃ s', Run P s' ∧ s'.log = .served (some []) :: s.log :=
  ⟨⟨_, .step _ _ .start (.serve start (some []) rfl), rfl⟩, fun s h => ⟨_, .step _ _ h (.serve s (some []) (by simp [allowed])), rfl⟩⟩

/-- A complete login with nobody else around. -/
theorem login_run {P : Bytes} {s : State} (h : Run P s) (pw r : Bytes) (hr : r.length = 32) (hi : s.login 0 = .idle) (hp : pw = P ∨ s.opened = true) :
    ∃ s', Run P s' ∧ s'.log = .granted pw (randPass r) :: .posted pw :: s.log ∧ s'.login 0 = .idle ∧ s'.opened = true := by
  have h1 := Run.step _ _ h (.post s 0 pw hi)
  have h2 := Run.step _ _ h1 (.set _ 0 pw rfl)
  cases ho : s.opened with
  | true =>
    have h3 := Run.step _ _ h2 (.isOpen _ 0 pw rfl ho)
    have h4 := Run.step _ _ h3 (.works _ 0 pw rfl)
    have h5 := Run.step _ _ h4 (.grant _ 0 pw r rfl hr)
    exact ⟨_, h5, rfl, rfl, ho⟩
  | false =>
    have hpw : pw = P := hp.resolve_right (by rw [ho]; simp)
    subst hpw
    have h3 := Run.step _ _ h2 (.closed _ 0 pw rfl ho)
    have h4 := Run.step _ _ h3 (.opens _ 0 pw rfl rfl)
    have h5 := Run.step _ _ h4 (.works _ 0 pw rfl)
    have h6 := Run.step _ _ h5 (.grant _ 0 pw r rfl hr)
    exact ⟨_, h6, rfl, rfl, rfl⟩

/-- **C118** (finding) Once the database is open, a login with any passphrase is successful, also without any concurrency. -/
theorem C118_any_passphrase_violated (P pw r r' : Bytes) (hr : r.length = 32) (hr' : r'.length = 32) :
    ∃ s, Run P s ∧ s.log = [.granted pw (randPass r'), .posted pw, .granted P (randPass r), .posted P] := by
  obtain ⟨s, h1, h2, h3, h4⟩ := login_run (P := P) .start P r hr rfl (.inl rfl)
  obtain ⟨s', g1, g2, -, -⟩ := login_run h1 pw r' hr' h3 (.inr h4)
  exact ⟨s', g1, by rw [g2, h2]; rfl⟩

/-- **C118** (finding) If a wrong passphrase is sent while the right one is being checked, the login with the wrong one can be
the successful one and the one with the right one be refused. -/
theorem C118_race_violated (P pw r : Bytes) (hr : r.length = 32) :
    ∃ s, Run P s ∧ s.log = [.denied P, .granted pw (randPass r), .posted P, .posted pw] := by
  have h1 := Run.step _ _ (Run.start (P := P)) (.post start 0 pw rfl)
  have h2 := Run.step _ _ h1 (.set _ 0 pw rfl)
  have h3 := Run.step _ _ h2 (.closed _ 0 pw rfl rfl)
  have h4 := Run.step _ _ h3 (.post _ 1 P rfl)
  have h5 := Run.step _ _ h4 (.set _ 1 P rfl)
  have h6 := Run.step _ _ h5 (.closed _ 1 P rfl rfl)
  have h7 := Run.step _ _ h6 (.opens _ 0 pw rfl rfl)
  have h8 := Run.step _ _ h7 (.works _ 0 pw rfl)
  have h9 := Run.step _ _ h8 (.grant _ 0 pw r rfl hr)
  have h10 := Run.step _ _ h9 (.opensNot _ 1 P rfl)
  exact ⟨_, h10, rfl⟩

/-- The hypotheses of the theorems above are met: after a login a page is served with the secret given out, a page is
refused with another one and without a cookie. -/
example (P r : Bytes) (hr : r.length = 32) (v : Bytes) (hv : v ≠ []) (hn : v ≠ randPass r) :
    ∃ s, Run P s ∧ s.log = [.refused none, .refused (some v), .served (some (randPass r)), .granted P (randPass r), .posted P] := by
  have h1 := Run.step _ _ (Run.start (P := P)) (.post start 0 P rfl)
  have h2 := Run.step _ _ h1 (.set _ 0 P rfl)
  have h3 := Run.step _ _ h2 (.closed _ 0 P rfl rfl)
  have h4 := Run.step _ _ h3 (.opens _ 0 P rfl rfl)
  have h5 := Run.step _ _ h4 (.works _ 0 P rfl)
  have h6 := Run.step _ _ h5 (.grant _ 0 P r rfl hr)
  have h7 := Run.step _ _ h6 (.serve _ (some (randPass r)) (by simp [allowed]))
  have h8 := Run.step _ _ h7 (.refuse _ (some v) (by simp [allowed, hv, hn]))
  have h9 := Run.step _ _ h8 (.refuse _ none rfl)
  exact ⟨_, h9, rfl⟩

end Verif.Ctrl.App

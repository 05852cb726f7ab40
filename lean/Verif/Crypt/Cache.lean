/-
The cache of key server clients and capabilities (cryptengine/cache/cache.go, cryptengine/capabilities.go)
over histories of commands with arbitrary answers of the network.

Simplifications: a client is its URL (jsonclient.go:25-28; the transport is made from the URL and the
certificate). The parsing of URLs, the loading of the certificate and the server are parameters that may
give something else at every request. Printing the capabilities succeeds (they are made of strings). The
directory argument is not used by the code.
-/
import Verif.Go

set_option autoImplicit false

namespace Verif.Crypt.Cache

/-- The capabilities of a key server (keyserver/capabilities/capabilities.go:10-19): the methods, the domains
and the other fields, which the cache does not look at. -/
structure Caps where
  methods : List Bytes
  domains : List Bytes
  rest : Bytes
  deriving DecidableEq

/-- What the cache asks the world: the configured URL of a key (`def.ConfigMap`), if a client for a URL can be
made (jsonclient.go:33-48) and the answer of the server at a URL to a request for its capabilities, if it is
one and of the right type (cache.go:70-88). -/
structure World where
  config : Bytes → Option Bytes
  client : Bytes → Bool
  answer : Bytes → Option Caps

/-- What can be observed: a request for capabilities at a URL for a domain with its answer; a client and
capabilities that were handed out for a domain and a method; capabilities that were printed; an error. -/
inductive Ev
  | asked (domain url : Bytes) (answer : Option Caps)
  | gave (domain method url : Bytes) (caps : Caps)
  | shown (domain : Bytes) (caps : Caps)
  | failed (domain : Bytes)
  | panicked
  deriving DecidableEq

/-- `Cache` (cache.go:22-25) and what was observed, newest first. -/
structure State where
  clients : Bytes → Option Bytes
  caps : Bytes → Option Caps
  log : List Ev

/-- `New` (cache.go:28-33). -/
def new : State := ⟨fun _ => none, fun _ => none, []⟩

/-- Store in a map. -/
def put {α : Type} (m : Bytes → Option α) (k : Bytes) (v : α) : Bytes → Option α :=
  fun j => if j = k then some v else m j

/-- `"https://"`. -/
def https : Bytes := "https://".toUTF8.data.toList
/-- `"keyserver."`. -/
def keyserver : Bytes := "keyserver.".toUTF8.data.toList
/-- `"/"`. -/
def slash : Bytes := "/".toUTF8.data.toList

/-- The URL for a domain (cache.go:39-51). -/
def url (w : World) (domain port altHost : Bytes) : Option Bytes :=
  if altHost ≠ [] then some (https ++ altHost ++ port ++ slash) else w.config (keyserver ++ domain)

/-- `newClient` (cache.go:38-58). -/
def newClient (w : World) (domain port altHost : Bytes) : Option Bytes :=
  match url w domain port altHost with
  | none => none
  | some u => if w.client u then some u else none

/-- Note an event. -/
def State.note (s : State) (e : Ev) : State := { s with log := e :: s.log }

/-- `Set` (cache.go:64-93). The boolean is false if an error is returned. -/
def set (w : World) (s : State) (domain port altHost : Bytes) : State × Bool :=
  match newClient w domain port altHost with
  | none => (s, false)
  | some u =>
    match w.answer u with
    | none => (s.note (.asked domain u none), false)
    | some c => (⟨put s.clients domain u, put s.caps domain c, .asked domain u (some c) :: s.log⟩, true)

/-- `Get` (cache.go:99-121). -/
def get (w : World) (s : State) (domain port altHost method : Bytes) : State :=
  let r := match s.caps domain with
    | none => set w s domain port altHost
    | some _ => (s, true)
  if r.2 = false then r.1.note (.failed domain) else
  match r.1.caps domain with
  | none => r.1.note .panicked
  | some c =>
    if c.methods.contains method = false then r.1.note (.failed domain) else
    match r.1.clients domain with
    | none => r.1.note .panicked
    | some u => r.1.note (.gave domain method u c)

/-- `ShowCapabilities` (cache.go:127-143). -/
def show_ (w : World) (s : State) (domain port altHost : Bytes) : State :=
  let r := match s.caps domain with
    | none => set w s domain port altHost
    | some _ => (s, true)
  if r.2 = false then r.1.note (.failed domain) else
  match r.1.caps domain with
  | none => r.1.note .panicked
  | some c => r.1.note (.shown domain c)

/-- The commands of the engine: `getCapabilities` (capabilities.go:12-30) with the domain and the optional port,
`showCapabilities` (capabilities.go:32-37) and the use of a method by the other commands (hashchain.go:26,72,
189,393, keyinit.go:47,109,145, uid.go:84). -/
inductive Op
  | getCaps (domain : Bytes) (port : Option Bytes) (altHost : Bytes)
  | showCaps (domain altHost : Bytes)
  | use (domain method : Bytes)

/-- The options `--keyport` and `--keyhost` of the engine. -/
structure Opts where
  port : Bytes
  host : Bytes

/-- `":"`. -/
def colon : Bytes := ":".toUTF8.data.toList

/-- One command in the world `w`. The splitting of `DMN[:PRT]` (capabilities.go:16-28) is already done. -/
def step (o : Opts) (s : State) : World × Op → State
  | (w, .getCaps d p a) =>
    let a := if a = [] ∧ o.host ≠ [] then o.host else a
    let r := set w s d (match p with | none => o.port | some p => colon ++ p) a
    if r.2 then r.1 else r.1.note (.failed d)
  | (w, .showCaps d a) =>
    let a := if a = [] ∧ o.host ≠ [] then o.host else a
    show_ w s d o.port a
  | (w, .use d m) => get w s d o.port o.host m

/-- A history. -/
def run (o : Opts) (ops : List (World × Op)) : State := ops.foldl (step o) new

/-! ### Specification -/

/-- The URL and the answer of the newest successful request for a domain. -/
def newest (d : Bytes) : List Ev → Option (Bytes × Caps)
  | [] => none
  | .asked d' u (some c) :: l => if d' = d then some (u, c) else newest d l
  | _ :: l => newest d l

/-- The number of successful requests for a domain. -/
def successes (d : Bytes) : List Ev → Nat
  | [] => 0
  | .asked d' _ (some _) :: l => (if d' = d then 1 else 0) + successes d l
  | _ :: l => successes d l

/-- The invariant: the maps are what the newest successful requests say. -/
def Inv (s : State) : Prop :=
  (∀ d, s.clients d = (newest d s.log).map Prod.fst) ∧ (∀ d, s.caps d = (newest d s.log).map Prod.snd)

/-- What was handed out or printed was the newest answer for the domain. -/
def Sound : List Ev → Prop
  | [] => True
  | .gave d m u c :: l => newest d l = some (u, c) ∧ m ∈ c.methods ∧ Sound l
  | .shown d c :: l => (∃ u, newest d l = some (u, c)) ∧ Sound l
  | .panicked :: _ => False
  | _ :: l => Sound l

theorem sound_split {l post pre : List Ev} {e : Ev} (h : Sound l) (he : l = post ++ e :: pre) :
    Sound (e :: pre) := by
  induction post generalizing l with
  | nil => subst he; exact h
  | cons x xs ih =>
    subst he
    apply ih _ rfl
    cases x <;> simp only [List.cons_append, Sound] at h <;> first | exact h | exact h.2 | exact h.2.2

theorem opt {α : Type} (x : Option α) : x = none ∨ ∃ y, x = some y := by
  cases x with
  | none => exact Or.inl rfl
  | some y => exact Or.inr ⟨y, rfl⟩

theorem inv_set {w : World} {s : State} {d p a : Bytes} (h : Inv s) (hs : Sound s.log) :
    Inv (set w s d p a).1 ∧ Sound (set w s d p a).1.log ∧
    ((set w s d p a).2 = true → ∃ x, newest d (set w s d p a).1.log = some x) := by
  obtain ⟨h1, h2⟩ := h
  unfold set
  cases hc : newClient w d p a with
  | none => exact ⟨⟨h1, h2⟩, hs, by simp⟩
  | some u =>
    cases ha : w.answer u with
    | none => simp only [ha]; exact ⟨⟨h1, h2⟩, hs, by simp⟩
    | some c =>
      simp only [ha]
      refine ⟨⟨fun j => ?_, fun j => ?_⟩, hs, fun _ => ⟨(u, c), by simp [newest]⟩⟩
      · by_cases e : d = j
        · subst e; simp [put, newest]
        · have e' : j ≠ d := fun q => e q.symm
          simp [put, newest, e, e', h1 j]
      · by_cases e : d = j
        · subst e; simp [put, newest]
        · have e' : j ≠ d := fun q => e q.symm
          simp [put, newest, e, e', h2 j]

theorem inv_fill {w : World} {s : State} {d p a : Bytes} (h : Inv s) (hs : Sound s.log) :
    let r := match s.caps d with
      | none => set w s d p a
      | some _ => (s, true)
    Inv r.1 ∧ Sound r.1.log ∧ (r.2 = true → ∃ x, newest d r.1.log = some x) := by
  cases hc : s.caps d with
  | none => exact inv_set h hs
  | some c =>
    refine ⟨h, hs, fun _ => ?_⟩
    have := h.2 d
    rw [hc] at this
    cases hn : newest d s.log with
    | none => rw [hn] at this; cases this
    | some x => exact ⟨x, rfl⟩

theorem inv_get {w : World} {s : State} {d p a m : Bytes} (h : Inv s) (hs : Sound s.log) :
    Inv (get w s d p a m) ∧ Sound (get w s d p a m).log := by
  have hf := inv_fill (w := w) (p := p) (a := a) (d := d) h hs
  unfold get
  generalize (match s.caps d with
      | none => set w s d p a
      | some _ => (s, true)) = r at hf ⊢
  obtain ⟨t, b⟩ := r
  obtain ⟨⟨h1, h2⟩, ht, hx⟩ := hf
  cases b with
  | false => exact ⟨⟨h1, h2⟩, ht⟩
  | true =>
    obtain ⟨⟨u, c⟩, hx⟩ := hx rfl
    have hc : t.caps d = some c := by rw [h2, hx]; rfl
    have hu : t.clients d = some u := by rw [h1, hx]; rfl
    simp only [hc, hu]
    cases hm : c.methods.contains m with
    | false => exact ⟨⟨h1, h2⟩, ht⟩
    | true =>
      refine ⟨⟨h1, h2⟩, hx, ?_, ht⟩
      simpa using hm

theorem inv_show {w : World} {s : State} {d p a : Bytes} (h : Inv s) (hs : Sound s.log) :
    Inv (show_ w s d p a) ∧ Sound (show_ w s d p a).log := by
  have hf := inv_fill (w := w) (p := p) (a := a) (d := d) h hs
  unfold show_
  generalize (match s.caps d with
      | none => set w s d p a
      | some _ => (s, true)) = r at hf ⊢
  obtain ⟨t, b⟩ := r
  obtain ⟨⟨h1, h2⟩, ht, hx⟩ := hf
  cases b with
  | false => exact ⟨⟨h1, h2⟩, ht⟩
  | true =>
    obtain ⟨⟨u, c⟩, hx⟩ := hx rfl
    have hc : t.caps d = some c := by rw [h2, hx]; rfl
    simp only [hc]
    exact ⟨⟨h1, h2⟩, ⟨u, hx⟩, ht⟩

theorem inv_step {o : Opts} {s : State} {x : World × Op} (h : Inv s) (hs : Sound s.log) :
    Inv (step o s x) ∧ Sound (step o s x).log := by
  obtain ⟨w, op⟩ := x
  cases op with
  | getCaps d p a =>
    simp only [step]
    generalize (if a = [] ∧ o.host ≠ [] then o.host else a) = a'
    generalize (match p with | none => o.port | some p => colon ++ p) = p'
    have := inv_set (w := w) (d := d) (p := p') (a := a') h hs
    cases hb : (set w s d p' a').2 with
    | true => simp only [if_true]; exact ⟨this.1, this.2.1⟩
    | false => exact ⟨this.1, this.2.1⟩
  | showCaps d a => exact inv_show h hs
  | use d m => exact inv_get h hs

theorem inv_run (o : Opts) (ops : List (World × Op)) : Inv (run o ops) ∧ Sound (run o ops).log := by
  have : ∀ s, Inv s → Sound s.log → Inv (ops.foldl (step o) s) ∧ Sound (ops.foldl (step o) s).log := by
    induction ops with
    | nil => exact fun s h1 h2 => ⟨h1, h2⟩
    | cons x xs ih => exact fun s h1 h2 => ih _ (inv_step h1 h2).1 (inv_step h1 h2).2
  exact this new ⟨fun _ => rfl, fun _ => rfl⟩ trivial

/-! ### Theorems -/

/-- Whatever the servers answer: a client that is handed out for a domain and a method is the one of the
newest successful request for the capabilities of that domain, and the server said that it supports the method. -/
theorem C123_supported (o : Opts) (ops : List (World × Op)) (post pre : List Ev) (d m u : Bytes) (c : Caps)
    (h : (run o ops).log = post ++ .gave d m u c :: pre) :
    newest d pre = some (u, c) ∧ m ∈ c.methods := by
  have := sound_split (inv_run o ops).2 h
  exact ⟨this.1, this.2.1⟩

/-- Capabilities that are printed are the newest answer for the domain. -/
theorem C123_shown (o : Opts) (ops : List (World × Op)) (post pre : List Ev) (d : Bytes) (c : Caps)
    (h : (run o ops).log = post ++ .shown d c :: pre) : ∃ u, newest d pre = some (u, c) :=
  (sound_split (inv_run o ops).2 h).1

/-- No history makes the cache panic. -/
theorem C123_no_panic (o : Opts) (ops : List (World × Op)) : .panicked ∉ (run o ops).log := by
  intro hm
  obtain ⟨pre, post, h⟩ := List.append_of_mem hm
  exact sound_split (inv_run o ops).2 h

/-- With a successful request in the past, using a method asks nobody: it hands out the client of that request
if the server said that it supports the method, and fails otherwise. -/
theorem C123_cached (o : Opts) (ops : List (World × Op)) (w : World) (d m u : Bytes) (c : Caps)
    (h : newest d (run o ops).log = some (u, c)) :
    (run o (ops ++ [(w, .use d m)])).log =
      (if m ∈ c.methods then .gave d m u c else .failed d) :: (run o ops).log := by
  obtain ⟨⟨h1, h2⟩, _⟩ := inv_run o ops
  have hc : (run o ops).caps d = some c := by rw [h2, h]; rfl
  have hu : (run o ops).clients d = some u := by rw [h1, h]; rfl
  have : run o (ops ++ [(w, .use d m)]) = get w (run o ops) d o.port o.host m := by
    simp [run, List.foldl_append, step]
  rw [this, get, hc]
  simp only [hc, hu]
  by_cases hm : m ∈ c.methods
  · simp [hm, State.note]
  · simp [hm, State.note]

/-- Without one, exactly one request is made, at the configured URL or at the alternate host, over TLS; the
method can be used exactly if the server answers and says that it supports it. If it does not answer, the
next use asks again. -/
theorem C123_first (o : Opts) (ops : List (World × Op)) (w : World) (d m : Bytes)
    (h : newest d (run o ops).log = none) :
    (run o (ops ++ [(w, .use d m)])).log =
      match (if o.host = [] then w.config (keyserver ++ d) else some (https ++ o.host ++ o.port ++ slash)) with
      | none => .failed d :: (run o ops).log
      | some u =>
        if w.client u = false then .failed d :: (run o ops).log else
        match w.answer u with
        | none => .failed d :: .asked d u none :: (run o ops).log
        | some c =>
          (if m ∈ c.methods then .gave d m u c else .failed d) :: .asked d u (some c) :: (run o ops).log := by
  obtain ⟨⟨h1, h2⟩, _⟩ := inv_run o ops
  have hc : (run o ops).caps d = none := by rw [h2, h]; rfl
  have : run o (ops ++ [(w, .use d m)]) = get w (run o ops) d o.port o.host m := by
    simp [run, List.foldl_append, step]
  have hu : url w d o.port o.host =
      if o.host = [] then w.config (keyserver ++ d) else some (https ++ o.host ++ o.port ++ slash) := by
    by_cases e : o.host = [] <;> simp [url, e]
  rw [this, get, hc, ← hu]
  simp only [set, newClient]
  generalize run o ops = s at *
  rcases opt (url w d o.port o.host) with hU | ⟨u, hU⟩
  · simp [hU, State.note]
  · simp only [hU]
    cases hw : w.client u with
    | false => simp [hw, State.note]
    | true =>
      cases ha : w.answer u with
      | none => simp [hw, ha, State.note]
      | some c =>
        by_cases hm : m ∈ c.methods <;> simp [hw, ha, hm, put, State.note]

theorem successes_zero {d : Bytes} {l : List Ev} (h : newest d l = none) : successes d l = 0 := by
  induction l with
  | nil => rfl
  | cons e l ih =>
    cases e with
    | asked d' u c =>
      cases c with
      | none => exact ih h
      | some c =>
        by_cases e : d' = d
        · simp [newest, e] at h
        · simp only [newest, e, if_false] at h
          simp [successes, e, ih h]
    | gave _ _ _ _ => exact ih h
    | shown _ _ => exact ih h
    | failed _ => exact ih h
    | panicked => exact ih h

theorem fill_successes {w : World} {s : State} {d p a : Bytes} (h : Inv s) (j : Bytes) (hj : successes j s.log ≤ 1) :
    successes j (match s.caps d with
      | none => set w s d p a
      | some _ => (s, true)).1.log ≤ 1 := by
  cases hc : s.caps d with
  | some c => exact hj
  | none =>
    have hn : newest d s.log = none := by
      have := h.2 d; rw [hc] at this
      cases hn : newest d s.log with
      | none => rfl
      | some x => rw [hn] at this; cases this
    have hz := successes_zero hn
    simp only [set]
    cases newClient w d p a with
    | none => exact hj
    | some u =>
      cases ha : w.answer u with
      | none => simpa [ha, State.note, successes] using hj
      | some c =>
        simp only [ha, successes]
        by_cases e : d = j
        · subst e; simp [hz]
        · simpa [e] using hj

/-- As long as the capabilities are not asked for explicitly, no domain is successfully asked twice. -/
theorem C123_once (o : Opts) (ops : List (World × Op)) (d : Bytes)
    (h : ∀ x ∈ ops, ∀ e p a, x.2 ≠ .getCaps e p a) : successes d (run o ops).log ≤ 1 := by
  have key : ∀ s, Inv s → Sound s.log → successes d s.log ≤ 1 → successes d (ops.foldl (step o) s).log ≤ 1 := by
    induction ops with
    | nil => exact fun s _ _ h => h
    | cons x xs ih =>
      intro s h1 h2 h3
      refine ih (fun y hy => h y (List.mem_cons_of_mem _ hy)) _ (inv_step h1 h2).1 (inv_step h1 h2).2 ?_
      obtain ⟨w, op⟩ := x
      cases op with
      | getCaps e p a => exact absurd rfl (h _ List.mem_cons_self e p a)
      | showCaps e a =>
        have := fill_successes (w := w) (d := e) (p := o.port)
          (a := if a = [] ∧ o.host ≠ [] then o.host else a) h1 d h3
        simp only [step, show_]
        generalize (match s.caps e with
          | none => set w s e o.port (if a = [] ∧ o.host ≠ [] then o.host else a)
          | some _ => (s, true)) = r at this ⊢
        cases hb : r.2 with
        | false => exact this
        | true =>
          cases hc : r.1.caps e <;> exact this
      | use e m =>
        have := fill_successes (w := w) (d := e) (p := o.port) (a := o.host) h1 d h3
        simp only [step, get]
        generalize (match s.caps e with
          | none => set w s e o.port o.host
          | some _ => (s, true)) = r at this ⊢
        cases hb : r.2 with
        | false => exact this
        | true =>
          cases hc : r.1.caps e with
          | none => exact this
          | some c =>
            cases hm : c.methods.contains m with
            | false => simp only [hm, Bool.true_eq_false, if_false, if_true]; exact this
            | true =>
              simp only [hm, Bool.true_eq_false, if_false]
              cases hu : r.1.clients e <;> exact this
  exact key new ⟨fun _ => rfl, fun _ => rfl⟩ trivial (Nat.zero_le 1)

/-- A request for the capabilities of a domain that fails changes nothing: everything after it goes on as if
it had not been made, except that it is noted. -/
theorem C123_failure (o : Opts) (ops : List (World × Op)) (w w' : World) (d d' m : Bytes) (p : Option Bytes) (a : Bytes)
    (hf : ∀ u, w.answer u = none) :
    ∃ es, (run o (ops ++ [(w, .getCaps d p a), (w', .use d' m)])).log.drop es =
        (run o ops).log ∧
      newest d' (run o (ops ++ [(w, .getCaps d p a)])).log = newest d' (run o ops).log ∧
      (∀ u c, (run o (ops ++ [(w, .getCaps d p a), (w', .use d' m)])).log.head? = some (.gave d' m u c) ↔
        (run o (ops ++ [(w', .use d' m)])).log.head? = some (.gave d' m u c)) := by
  have hstep : ∃ k l, (step o (run o ops) (w, .getCaps d p a)).clients = (run o ops).clients ∧
      (step o (run o ops) (w, .getCaps d p a)).caps = (run o ops).caps ∧
      (step o (run o ops) (w, .getCaps d p a)).log = l ++ (run o ops).log ∧ l.length = k ∧
      newest d' (l ++ (run o ops).log) = newest d' (run o ops).log := by
    simp only [step, set]
    rcases opt (newClient w d (match p with | none => o.port | some p => colon ++ p)
        (if a = [] ∧ o.host ≠ [] then o.host else a)) with hn | ⟨u, hn⟩
    · simp only [hn]
      exact ⟨1, [.failed d], rfl, rfl, rfl, rfl, rfl⟩
    · simp only [hn, hf]
      exact ⟨2, [.failed d, .asked d u none], rfl, rfl, rfl, rfl, rfl⟩
  obtain ⟨k, l, h1, h2, h3, h4, h5⟩ := hstep
  have e1 : run o (ops ++ [(w, .getCaps d p a)]) = step o (run o ops) (w, .getCaps d p a) := by
    simp [run, List.foldl_append]
  have e2 : run o (ops ++ [(w, .getCaps d p a), (w', .use d' m)]) =
      get w' (step o (run o ops) (w, .getCaps d p a)) d' o.port o.host m := by
    simp only [run, List.foldl_append, List.foldl_cons, List.foldl_nil]
    rfl
  have e3 : run o (ops ++ [(w', .use d' m)]) = get w' (run o ops) d' o.port o.host m := by
    simp only [run, List.foldl_append, List.foldl_cons, List.foldl_nil]
    rfl
  rw [e1, e2, e3]
  generalize hs : step o (run o ops) (w, .getCaps d p a) = s at *
  have hget : ∃ x, (get w' s d' o.port o.host m).log = x ++ s.log ∧
      (get w' (run o ops) d' o.port o.host m).log = x ++ (run o ops).log ∧ x ≠ [] := by
    simp only [get, set, h2]
    cases hc : (run o ops).caps d' with
    | some c =>
      simp only [Bool.true_eq_false, if_false, h2, hc, h1]
      cases c.methods.contains m with
      | false => exact ⟨[_], rfl, rfl, by simp⟩
      | true =>
        cases (run o ops).clients d' <;> exact ⟨[_], rfl, rfl, by simp⟩
    | none =>
      simp only []
      rcases opt (newClient w' d' o.port o.host) with hn | ⟨u, hn⟩
      · simp only [hn]
        exact ⟨[_], rfl, rfl, by simp⟩
      · simp only [hn]
        rcases opt (w'.answer u) with ha | ⟨c, ha⟩
        · simp only [ha]
          exact ⟨[_, _], rfl, rfl, by simp⟩
        · simp only [ha, put, if_true, Bool.true_eq_false, if_false]
          cases c.methods.contains m <;> exact ⟨[_, _], rfl, rfl, by simp⟩
  obtain ⟨x, hx1, hx2, hx3⟩ := hget
  refine ⟨x.length + l.length, ?_, ?_, ?_⟩
  · rw [hx1, h3, ← List.append_assoc]
    have : x.length + l.length = (x ++ l).length := by simp
    rw [this, List.drop_left]
  · rw [h3]; exact h5
  · intro u c
    rw [hx1, hx2]
    cases x with
    | nil => exact absurd rfl hx3
    | cons y ys => simp

/-! ### What the cache does not do -/

private def b (s : String) : Bytes := s.toUTF8.data.toList

private def caps1 : Caps := ⟨[b "KeyRepository.FetchUID"], [b "mute.berlin"], []⟩
private def caps2 : Caps := ⟨[b "KeyRepository.FetchUID"], [b "other.org"], []⟩

/-- A configured server for mute.berlin and one at another host. -/
private def w1 : World := {
  config := fun k => if k = b "keyserver.mute.berlin" then some (b "https://keys.mute.berlin:1234/") else none
  client := fun _ => true
  answer := fun u => if u = b "https://keys.mute.berlin:1234/" then some caps1
    else if u = b "https://elsewhere.net:3000/" then some caps2 else none }

private def opts : Opts := ⟨b ":1234", []⟩

/-- Violated: after the capabilities of a domain have been asked for at an alternate host once, all later
commands for the domain use that host, although they are not given one and the configured server works; and
nobody compares the domains the server says it serves with the domain in question. -/
theorem C123_other_host_violated :
    ∃ (o : Opts) (w : World) (d m other : Bytes) (c : Caps), o.host = [] ∧
      (∃ u c', w.config (keyserver ++ d) = some u ∧ w.client u = true ∧ w.answer u = some c' ∧
        m ∈ c'.methods ∧ d ∈ c'.domains ∧ u ≠ other) ∧
      d ∉ c.domains ∧
      (run o [(w, .getCaps d (some (b "3000")) (b "elsewhere.net")), (w, .use d m)]).log.head? =
        some (.gave d m other c) :=
  ⟨opts, w1, b "mute.berlin", b "KeyRepository.FetchUID", b "https://elsewhere.net:3000/", caps2, rfl,
    ⟨b "https://keys.mute.berlin:1234/", caps1, by decide +kernel⟩, by decide +kernel, by decide +kernel⟩

/-- A case for the theorems: the first use asks, the second does not, an unknown method fails, an unknown domain
fails without a request. -/
example :
    (run opts [(w1, .use (b "mute.berlin") (b "KeyRepository.FetchUID")),
      (w1, .use (b "mute.berlin") (b "KeyRepository.FetchUID")),
      (w1, .use (b "mute.berlin") (b "KeyRepository.CreateUID")),
      (w1, .use (b "nowhere.net") (b "KeyRepository.FetchUID")),
      (w1, .showCaps (b "mute.berlin") [])]).log =
    [.shown (b "mute.berlin") caps1,
     .failed (b "nowhere.net"),
     .failed (b "mute.berlin"),
     .gave (b "mute.berlin") (b "KeyRepository.FetchUID") (b "https://keys.mute.berlin:1234/") caps1,
     .gave (b "mute.berlin") (b "KeyRepository.FetchUID") (b "https://keys.mute.berlin:1234/") caps1,
     .asked (b "mute.berlin") (b "https://keys.mute.berlin:1234/") (some caps1)] := by decide +kernel

/-- The hypothesis of `C123_failure` is met by a network that is down. -/
example : ∀ u, ({ w1 with answer := fun _ => none } : World).answer u = none := fun _ => rfl

/-- A failed request for a domain, then a use that asks again. -/
example :
    (run opts [({ w1 with answer := fun _ => none }, .getCaps (b "mute.berlin") none []),
      (w1, .use (b "mute.berlin") (b "KeyRepository.FetchUID"))]).log =
    [.gave (b "mute.berlin") (b "KeyRepository.FetchUID") (b "https://keys.mute.berlin:1234/") caps1,
     .asked (b "mute.berlin") (b "https://keys.mute.berlin:1234/") (some caps1),
     .failed (b "mute.berlin"),
     .asked (b "mute.berlin") (b "https://keys.mute.berlin:1234/") none] := by decide +kernel

end Verif.Crypt.Cache

import Verif.Msg.Reset
import Verif.Keydb.Store
/-
C150 with the key database.
-/
set_option autoImplicit false
namespace Verif.Keydb
open Verif.Msg Verif.Sql Prog

theorem addKeys_states (db : DB) (sid n : Nat) (s r : List Str) : (addKeys db sid n s r).states = db.states := by
  induction s generalizing db n r with
  | nil => cases r <;> rfl
  | cons x s ih =>
    cases r with
    | nil => rfl
    | cons y r =>
      unfold addKeys
      exact ih _ _ _

/-- Of all calls only SetSessionState writes the table SessionStates. -/
theorem noset_states (P : Prims) {α : Type} {p : Prog α} (h : NoSet p) (st : Store) :
    (p.run (Store.handle P) st).2.db.states = st.db.states := by
  induction p generalizing st with
  | ret a => rfl
  | fail e => rfl
  | panic => rfl
  | call r k ih =>
    rw [run_call]
    refine (ih _ (h.2 _) _).trans ?_
    have h1 := h.1
    cases r <;> try rfl
    · exact absurd trivial h1
    · simp only [Store.handle, addSession]
      repeat' split
      all_goals first | rfl | exact addKeys_states _ _ _ _ _
    · simp only [Store.handle, delMessageKey]
      repeat' split
      all_goals rfl
    · simp only [Store.handle, addSKey]
      repeat' split
      all_goals rfl
    · simp only [Store.handle, delSKey]
      repeat' split
      all_goals rfl

section
variable (P : Prims)

theorem db_decSession (a : DecArgs) (n : UInt64) (hp : Bytes) (u : UID) (h : Header) (st : Store)
    {rp sp : Bytes} (hrp : u.pubKey.pub32 P = some rp) (hsp : h.senderIdentityPub.pub32 P = some sp)
    {s : Option State} (hst : getState st.db (calcStateKey P rp sp) = .ok s)
    (hnew : hasSession st.db (decSessionKey P u h) = false) :
    (decSession P a n hp u h).run (Store.handle P) st =
      (decUnknown P a n hp u h (calcStateKey P rp sp) (decSessionKey P u h) s).run (Store.handle P) st := by
  unfold decSession
  simp only [bind_eq, hrp, hsp, orPanic, ret_bind]
  rw [run_bind_of_ok (a := s) (s1 := st) _ (by
    rw [run_ask_ok]; simp only [Store.handle, hst])]
  rw [run_bind_of_ok (a := false) (s1 := st) _ (by
    rw [run_try'_ok]; simp only [Store.handle, hnew]; exact ⟨trivial, trivial⟩)]
  rfl

/-- C150. DISAGREES WITH THE CODE, with the key database. The database has a session state with the sender
that was answered, or the sender's identity is not the smaller one. A message with the status Reset for a
session that is not in the database leaves the table of session states as it is. -/
theorem C150_reset_db_violated {a : DecArgs} {hp : Bytes} {u : UID} {h : Header} {r : Bytes}
    (hd : (decHead P a).out = .ok (hp, u, h, r)) (_hreset : h.status = statusReset)
    {rp sp : Bytes} (hrp : u.pubKey.pub32 P = some rp) (hsp : h.senderIdentityPub.pub32 P = some sp)
    {st : Store} {s : State} (hst : getState st.db (calcStateKey P rp sp) = .ok (some s))
    (hs : s.keyInitSession = false ∨ ¬ h.senderIdentity < u.identity)
    (hnew : hasSession st.db (decSessionKey P u h) = false) :
    ((decrypt P a).run (Store.handle P) st).2.db.states = st.db.states := by
  have hs : (s.keyInitSession && decide (h.senderIdentity < u.identity)) = false := by
    rcases hs with h | h <;> simp [h]
  unfold decrypt
  simp only [bind_eq]
  rw [run_bind_of_ok (a := (hp, u, h, r)) (s1 := st) _ (by rw [(noCall_decHead P a).run, hd])]
  simp only
  rw [run_bind, db_decSession P a _ hp u h st hrp hsp hst hnew, ← run_bind]
  refine noset_states P ?_ st
  refine NoSet.bind (noset_decUnknown P _ _ _ _ _ _ _ hs) fun ss =>
    NoSet.bind (noset_decExtend P _ _ _ _ _) fun _ => NoSet.bind (NoSet.ask (fun h => h)) fun mk =>
      NoSet.bind (noset_decBody P _ _ _) fun _ => NoSet.bind (NoSet.ask (fun h => h)) fun _ => ?_
  noset

/-- C150. DISAGREES WITH THE CODE, with the key database. A user whose database has neither the session of a
message nor the private KeyInit key it names refuses the message, and the database stays as it was, so
every later message of that session is refused too. -/
theorem C150_refused_db_violated {a : DecArgs} {hp : Bytes} {u : UID} {h : Header} {r : Bytes}
    (hd : (decHead P a).out = .ok (hp, u, h, r)) {st : Store}
    (hnew : hasSession st.db (decSessionKey P u h) = false) (hpr : st.privs h.recipientTempHash = none) :
    ∃ x, (decrypt P a).run (Store.handle P) st = (x, st) ∧ ∀ y, x ≠ .ok y := by
  have hnone : getSession st.db (decSessionKey P u h) = none := by
    unfold hasSession at hnew
    cases e : getSession st.db (decSessionKey P u h) with
    | none => rfl
    | some x => rw [e] at hnew; cases hnew
  unfold decrypt
  simp only [bind_eq]
  rw [run_bind_of_ok (a := (hp, u, h, r)) (s1 := st) _ (by rw [(noCall_decHead P a).run, hd])]
  simp only
  have e : ∀ n, ∃ x, (decSession P a n hp u h).run (Store.handle P) st = (x, st) := by
    intro n
    cases h1 : u.pubKey.pub32 P with
    | none => unfold decSession; simp only [bind_eq, h1]; exact ⟨_, rfl⟩
    | some rp =>
    cases h2 : h.senderIdentityPub.pub32 P with
    | none => unfold decSession; simp only [bind_eq, h1, h2]; exact ⟨_, rfl⟩
    | some sp =>
    cases h3 : getState st.db (calcStateKey P rp sp) with
    | error e =>
      unfold decSession
      simp only [bind_eq, h1, h2, orPanic, ret_bind]
      rw [run_bind, run_ask]
      simp only [Store.handle, h3]
      exact ⟨_, rfl⟩
    | ok s =>
      rw [db_decSession P a n hp u h st h1 h2 h3 hnew]
      unfold decUnknown
      simp only [bind_eq]
      rw [run_bind_of_ok (a := .error .noKeyEntry) (s1 := st) _ (by
        rw [run_try'_ok]; simp only [Store.handle, hpr]; exact ⟨trivial, trivial⟩)]
      exact ⟨_, rfl⟩
  obtain ⟨x, hx⟩ := e (if a.numOfKeys = 0 then numOfFutureKeys else a.numOfKeys)
  rw [run_bind, hx]
  cases x with
  | err e => exact ⟨_, rfl, by intro y hy; cases hy⟩
  | panic => exact ⟨_, rfl, by intro y hy; cases hy⟩
  | ok ss =>
    simp only
    unfold decExtend
    simp only [bind_eq]
    rw [run_bind, run_bind, run_ask]
    simp only [Store.handle, numMessageKeys, hnone]
    exact ⟨_, rfl, by intro y hy; cases hy⟩

end
end Verif.Keydb

import Verif.Keydb.Reset
import Verif.Msg.ResetToy
/-
Cases that meet the hypotheses of C150 with the key database.
-/
set_option autoImplicit false
namespace Verif.Keydb
open Verif.Msg Verif.Sql Prog Verif.Msg.Toy

theorem stateKey_ne {P : Prims} (hP : P.Good) (a b : Bytes) : calcStateKey P a b ≠ [] := by
  intro h
  have := congrArg List.length h
  unfold calcStateKey at this
  rw [hP.b64_len, hP.sha512_len] at this
  cases this

/-- A database with one session state. -/
def oneState (k : Str) (s : State) : DB := { DB.new with states := [(1, (k, s))] }

theorem oneState_get {k : Str} {s : State} (hk : k ≠ []) : getState (oneState k s) k = .ok (some s) := by
  unfold getState oneState
  rw [if_neg hk]
  simp [first]

/-- Bob's database: a session with Alice that was answered. -/
def dbR : Store := ⟨oneState (calcStateKey PE (PE.dhPub linkE.bPriv) (PE.dhPub linkE.aPriv)) sessR,
  fun _ => none, fun _ => none, fun _ => [], []⟩

theorem sessR_key : sessR.keyInitSession = false := by unfold sessR; rfl

/-- Alice asks Bob to reset the session; Bob's database keeps the old one. -/
example : ∃ a hp h r, (decHead PE a).out = .ok (hp, linkE.bob, h, r) ∧ h.status = statusReset ∧
    ((decrypt PE a).run (Store.handle PE) dbR).2.db.states = dbR.db.states := by
  obtain ⟨h, h1, h2⟩ := headR_read
  obtain ⟨a, h3, -, -⟩ := h2 statusReset
  have h4 : ({ h with status := statusReset } : Header).senderIdentityPub = (initDHKey PE linkE.aPriv).public := h1
  have h5 : ({ h with status := statusReset } : Header).status = statusReset := rfl
  revert h3 h4 h5
  generalize ({ h with status := statusReset } : Header) = g
  intro h3 h4 h5
  exact ⟨a, _, _, _, h3, h5, C150_reset_db_violated PE h3 h5 (rp := PE.dhPub linkE.bPriv)
    (sp := PE.dhPub linkE.aPriv) (by rw [linkE_ok.b]; exact initDHKey_pub32 PE PE_good _)
    (by rw [h4]; exact initDHKey_public_pub32 PE PE_good _)
    (by unfold dbR; exact oneState_get (stateKey_ne PE_good _ _)) (.inl sessR_key) rfl⟩

/-- Bob lost the database: Alice's message is refused. -/
example : ∃ a hp h r x, (decHead PE a).out = .ok (hp, linkE.bob, h, r) ∧
    (decrypt PE a).run (Store.handle PE) ⟨DB.new, fun _ => none, fun _ => none, fun _ => [], []⟩ =
      (x, ⟨DB.new, fun _ => none, fun _ => none, fun _ => [], []⟩) ∧ ∀ y, x ≠ .ok y := by
  obtain ⟨h, -, h2⟩ := headR_read
  obtain ⟨a, h3, -, -⟩ := h2 statusOK
  revert h3
  generalize ({ h with status := statusOK } : Header) = g
  intro h3
  obtain ⟨x, h4, h5⟩ := C150_refused_db_violated PE h3
    (st := ⟨DB.new, fun _ => none, fun _ => none, fun _ => [], []⟩) rfl rfl
  exact ⟨a, _, _, _, x, h3, h4, h5⟩

end Verif.Keydb

import Verif.Keydb.Forged
import Verif.Keydb.ResetToy
import Verif.Msg.ForgedToy
/-
Cases that meet the hypotheses of C151 with the key database.
-/
set_option autoImplicit false
namespace Verif.Keydb
open Verif.Msg Verif.Sql Prog Verif.Msg.Toy

/-- Databases of two users who have never communicated. -/
def dbTA : Store := ⟨DB.new, fun _ => none, Msg.upd (fun _ => none) linkT.bob.identity
  (some (initDHKey PE linkT.kPriv).public), fun _ => [], []⟩
def dbTB : Store := ⟨DB.new, Msg.upd (fun _ => none) (keyHash PE linkT.kPriv) (some (initDHKey PE linkT.kPriv)),
  fun _ => none, fun _ => [], []⟩

theorem dbT_begin : Begin PE linkT dbTA dbTB :=
  ⟨rfl, rfl, upd_same (fun _ => none) linkT.bob.identity _, upd_same (fun _ => none) (keyHash PE linkT.kPriv) _⟩

/-- Somebody sends Bob a message without body in Alice's name; Bob's database now has a session with Alice. -/
example : ∃ SB' s, dbTry PE linkT (tkey 51) (forgery PE linkT.alice linkT.bob (PE.dhPub linkT.bPriv)
      (initDHKey PE linkT.kPriv).public (forgerF PE linkT (roundT 10 [104, 105] true false))) dbTB = (none, SB') ∧
    getState SB'.db (linkT.stateKeyB PE) = .ok (some s) ∧
    s.recipientTemp = (initDHKey PE (roundT 10 [104, 105] true false).rnd.sessPriv).public := by
  obtain ⟨SB', s, h1, h2, h3, -⟩ := C151_forged_db_violated PE PE_good linkT_ok
    (forgerF PE linkT (roundT 10 [104, 105] true false)) (tkey 51) dbT_begin.start (Store.mem_rep rfl)
    emarshal_parse (roundT_ok 10 [104, 105] true false).rnd.nonce_len
    (forgerF_len (roundT_fits linkT_ok rfl (by decide) _ _ (by decide) _ _)) (by decide +kernel)
    (by decide +kernel) rfl
  exact ⟨SB', s, h1, h2, h3⟩

/-- Bob's database has an answered session with Alice; a message of another one leaves it. -/
example : ∃ a hp h r, (decHead PE a).out = .ok (hp, linkE.bob, h, r) ∧
    ((decrypt PE a).run (Store.handle PE) dbR).2.db.states = dbR.db.states := by
  obtain ⟨h, h1, h2⟩ := headR_read
  obtain ⟨a, h3, -, -⟩ := h2 statusOK
  have h4 : ({ h with status := statusOK } : Header).senderIdentityPub = (initDHKey PE linkE.aPriv).public := h1
  revert h3 h4
  generalize ({ h with status := statusOK } : Header) = g
  intro h3 h4
  exact ⟨a, _, _, _, h3, C151_established_db_partial PE h3 (rp := PE.dhPub linkE.bPriv)
    (sp := PE.dhPub linkE.aPriv) (by rw [linkE_ok.b]; exact initDHKey_pub32 PE PE_good _)
    (by rw [h4]; exact initDHKey_public_pub32 PE PE_good _)
    (by unfold dbR; exact oneState_get (stateKey_ne PE_good _ _)) sessR_key rfl⟩

end Verif.Keydb

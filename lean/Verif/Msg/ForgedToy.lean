import Verif.Msg.Forged
import Verif.Msg.ResetToy
/-
Cases that meet the hypotheses of C151.
-/
set_option autoImplicit false
namespace Verif.Msg.Toy
open Two

/-- The state of somebody who starts a session with the key `x`. -/
def stateF (P : Prims) (L : Link) (x : Bytes) : State :=
  { senderSessionCount := 0, senderMessageCount := 0, maxRecipientCount := 0,
    recipientTemp := (initDHKey P L.kPriv).public, senderSessionPub := initDHKey P x,
    nextSenderSessionPub := none, nextRecipientSessionPubSeen := none, nymAddress := [], keyInitSession := true }

/-- Choices of the forger like those of a user who sends a message. -/
def forgerF (P : Prims) (L : Link) (r : Round) : Forger :=
  ⟨r.rnd.sessPriv, r.rnd.headerPriv, r.rnd.nonce, r.lastHash, r.nymAddress,
    (mkHeader (L.encArgs r) r.rnd (stateF P L r.rnd.sessPriv)).padding⟩

theorem forgerF_len {P : Prims} {L : Link} {r : Round} (hf : Fits P L r) :
    (P.marshal (forgedHeader P L.alice L.bob (initDHKey P L.kPriv).public (forgerF P L r))).length = 7152 := by
  have := hf.header (firstSn P L r.rnd.sessPriv) (view0 (fun _ => none) [] true) (stateF P L r.rnd.sessPriv)
    ⟨rfl, rfl, rfl, rfl, rfl, rfl⟩
  exact this

/-- Somebody sends Bob a message without body in Alice's name; Bob then writes twice to Alice. -/
example : ∃ B' ws, openStep PE linkT (tkey 51) (forgery PE linkT.alice linkT.bob (PE.dhPub linkT.bPriv)
      (initDHKey PE linkT.kPriv).public (forgerF PE linkT (roundT 10 [104, 105] true false))) storeCB = (none, B') ∧
    writeAll PE linkT.flip [roundT 20 [120] false true, roundT 41 [1] true true] B' = some ws ∧ ws.length = 2 ∧
    ∀ m ∈ ws, ∀ y, openStep PE linkT.flip y m storeCA = (none, storeCA) :=
  C151_forged_violated (forgerF PE linkT (roundT 10 [104, 105] true false)) (tkey 51)
    [roundT 20 [120] false true, roundT 41 [1] true true] rfl
    (contactT (by decide +kernel) (by decide +kernel) (by decide +kernel)) (by decide +kernel)
    (roundT_ok 10 [104, 105] true false).rnd.nonce_len
    (forgerF_len (roundT_fits linkT_ok rfl (by decide) _ _ (by decide) _ _))
    (upd_other (fun _ => none) (some (initDHKey PE (tkey 72))) fun e => absurd (keyHash_inj (tkey 11) (by decide +kernel) (tkey 72)
      (by decide +kernel) e) (by decide +kernel))
    (by
      intro r hr
      simp only [List.mem_cons, List.not_mem_nil, or_false] at hr
      rcases hr with rfl | rfl <;>
        exact ⟨roundT_ok _ _ _ _, roundT_fits linkT_okB rfl (by decide) _ _ (by decide) _ _⟩)
    (by decide)

/-- The same, and Alice writes before Bob does. -/
example : ∃ B1 w A1 B2 ws, openStep PE linkT (tkey 51) (forgery PE linkT.alice linkT.bob (PE.dhPub linkT.bPriv)
      (initDHKey PE linkT.kPriv).public (forgerF PE linkT (roundT 10 [104, 105] true false))) storeCB = (none, B1) ∧
    sendStep PE linkT (roundT 31 [7] false true) storeCA = (some w, A1) ∧
    openStep PE linkT (tkey 61) w B1 = (some ([7], aliceT.identity, []), B2) ∧
    writeAll PE linkT.flip [roundT 20 [120] false true, roundT 41 [1] true true] B2 = some ws ∧ ws.length = 2 ∧
    ∀ m ∈ ws, ∀ y, openStep PE linkT.flip y m A1 = (none, A1) :=
  C151_first_contact_violated (forgerF PE linkT (roundT 10 [104, 105] true false)) (tkey 51) (tkey 61)
    (roundT 31 [7] false true) [roundT 20 [120] false true, roundT 41 [1] true true] rfl
    (contactT (by decide +kernel) (by decide +kernel) (by decide +kernel)) (by decide +kernel)
    (roundT_ok 10 [104, 105] true false).rnd.nonce_len
    (forgerF_len (roundT_fits linkT_ok rfl (by decide) _ _ (by decide) _ _))
    (upd_other (fun _ => none) (some (initDHKey PE (tkey 72))) fun e => absurd (keyHash_inj (tkey 11)
      (by decide +kernel) (tkey 72) (by decide +kernel) e) (by decide +kernel))
    ⟨roundT_ok _ _ _ _, roundT_fits linkT_ok rfl (by decide) _ _ (by decide) _ _⟩
    (by
      intro r hr
      simp only [List.mem_cons, List.not_mem_nil, or_false] at hr
      rcases hr with rfl | rfl <;>
        exact ⟨roundT_ok _ _ _ _, roundT_fits linkT_okB rfl (by decide) _ _ (by decide) _ _⟩)
    (by decide)

/-- Bytes that are no message. -/
example (st : MemStore) : ((decrypt PE ⟨[bobT], [1, 2, 3], [4, 5], 0, tkey 51⟩).run (MemStore.handle PE) st).2 = st ∧
    ∀ x, ((decrypt PE ⟨[bobT], [1, 2, 3], [4, 5], 0, tkey 51⟩).run (MemStore.handle PE) st).1 ≠ .ok x :=
  C151_unreadable_partial (fun _ h => by
    have e : ∃ z, (decHead PE ⟨[bobT], [1, 2, 3], [4, 5], 0, tkey 51⟩).out = .err z := ⟨_, rfl⟩
    obtain ⟨z, e⟩ := e
    rw [e] at h; cases h) st

/-- Bob has an answered session with Alice and gets a message of another one. -/
example : ∃ a hp h r, (decHead PE a).out = .ok (hp, linkE.bob, h, r) ∧
    ((decrypt PE a).run (MemStore.handle PE) storeR).2.states = storeR.states ∧
    ((decrypt PE a).run (MemStore.handle PE) storeR).2.privs = storeR.privs := by
  obtain ⟨h, h1, h2⟩ := headR_read
  obtain ⟨a, h3, -, -⟩ := h2 statusOK
  have h4 : ({ h with status := statusOK } : Header).senderIdentityPub = (initDHKey PE linkE.aPriv).public := h1
  revert h3 h4
  generalize ({ h with status := statusOK } : Header) = g
  intro h3 h4
  have h6 := storeR_state
  rw [stateKeyB_eq] at h6
  refine ⟨a, _, _, _, h3, C151_established_partial h3 (rp := PE.dhPub linkE.bPriv) (sp := PE.dhPub linkE.aPriv)
    (by rw [linkE_ok.b]; exact initDHKey_pub32 PE PE_good _)
    (by rw [h4]; exact initDHKey_public_pub32 PE PE_good _) h6 ?_ ?_⟩
  · unfold sessR; rfl
  · unfold storeR; rfl

end Verif.Msg.Toy

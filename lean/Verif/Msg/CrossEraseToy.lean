import Verif.Msg.CrossErase
import Verif.Msg.CrossingToy
/-
Cases that meet the hypotheses of C149: the conversation of C148.
-/
set_option autoImplicit false
namespace Verif.Msg.Toy
open Two

theorem crossT_ok : ∀ a ∈ crossT, a.OK PE linkT { uid0 with sigKey := sigKeyE } { uid0 with sigKey := sigKeyE } := by
  intro a ha
  simp only [crossT, List.mem_cons, List.not_mem_nil, or_false] at ha
  rcases ha with rfl | rfl | rfl | rfl | rfl | rfl | rfl | rfl | rfl <;>
    first
    | exact trivial
    | exact ⟨roundT_ok _ _ _ _, roundT_fits linkT_ok rfl (by decide) _ _ (by decide) _ _⟩
    | exact ⟨roundT_ok _ _ _ _, roundT_fits linkT_okB rfl (by decide) _ _ (by decide) _ _⟩

example : KeepsOnly PE (linkT.aPriv :: linkT.bPriv :: linkT.kPriv :: draws crossT) (linkT.stateKeyA PE)
    (after PE linkT ⟨storeCA, storeCB, [], []⟩ crossT).A :=
  (C149_erased_partial crossT (contactT (by decide +kernel) (by decide +kernel) (by decide +kernel))
    (by decide +kernel) crossT_ok (by decide) _ rfl _ rfl).1

/-- The same with the second user writing first. -/
def crossT2 : List Act :=
  [.send false (roundT 20 [120] false true), .send true (roundT 10 [104, 105] true false)] ++ crossT.drop 2

example : ∃ w h mk, (after PE linkT ⟨storeCA, storeCB, [], []⟩ crossT2).toA[0]? = some w ∧
    w = PE.b64 (messageBytes PE (roundT 20 [120] false true).rnd h (PE.dhPub linkT.aPriv) mk
      (roundT 20 [120] false true).sigKey (roundT 20 [120] false true).content) ∧
    recoverSent PE (after PE linkT ⟨storeCA, storeCB, [], []⟩ crossT2).B bobT.identity linkT.bPriv
      aliceT.identity (PE.dhPub linkT.aPriv) h = some mk :=
  C149_kept_violated (roundT 20 [120] false true) (roundT 10 [104, 105] true false) (crossT.drop 2)
    (contactT (by decide +kernel) (by decide +kernel) (by decide +kernel)) (by decide +kernel)
    (fun a ha => crossT_ok a (by
      simp only [List.mem_cons] at ha
      rcases ha with rfl | rfl | ha
      · simp [crossT]
      · simp [crossT]
      · exact List.mem_of_mem_drop ha)) (by decide) _ rfl

end Verif.Msg.Toy

import Verif.Msg.TwoWayErase
import Verif.Msg.TwoWayRefreshToy
/-
Cases that meet the hypotheses of C147: the conversation of C146 in which the keys are refreshed.
-/
set_option autoImplicit false
namespace Verif.Msg.Toy
open Two

theorem turnsT_ok : ∀ a ∈ turnsT, a.OK PE linkT { uid0 with sigKey := sigKeyE } { uid0 with sigKey := sigKeyE } := by
  intro a ha
  simp only [turnsT, List.mem_cons, List.not_mem_nil, or_false] at ha
  rcases ha with rfl | rfl | rfl | rfl | rfl | rfl | rfl | rfl <;>
    first
    | exact trivial
    | exact ⟨roundT_ok _ _ _ _, roundT_fits linkT_ok rfl (by decide) _ _ (by decide) _ _⟩
    | exact ⟨roundT_ok _ _ _ _, roundT_fits linkT_okB rfl (by decide) _ _ (by decide) _ _⟩

/-- The key `tkey 11` of the first session is no longer there: the session now is that of `tkey 51`. -/
example (t : Talk) (ht : t = after PE linkT ⟨storeTA, storeTB, [], []⟩ turnsT) (outs : List Out)
    (ho : outs = talk PE linkT ⟨storeTA, storeTB, [], []⟩ turnsT) :
    KeepsOnly PE (tkey 1 :: tkey 2 :: tkey 3 :: draws turnsT) (linkT.stateKeyA PE) t.A ∧
    (∀ (x : Nat) (w : Str), t.toB[x]? = some w → Spent PE linkT t.A t.B w (x ∈ openedTo true turnsT outs)) := by
  have h := C147_erased_partial turnsT
    (settingT_sub (by decide +kernel) (by decide +kernel) (by decide +kernel)) (by decide +kernel)
    turnsT_ok (by decide) t ht outs ho
  exact ⟨h.1, h.2.2.1⟩

example (t : Talk) (ht : t = after PE linkT ⟨storeTA, storeTB, [], []⟩ turnsT) :
    ∃ w h mk, t.toB[0]? = some w ∧
      w = PE.b64 (messageBytes PE (roundT 10 [104, 105] true false).rnd h (PE.dhPub (tkey 2)) mk
        (roundT 10 [104, 105] true false).sigKey [104, 105]) ∧
      recover PE t.B (tkey 2) linkT.bob.identity h = some mk :=
  C147_first_message_violated (roundT 10 [104, 105] true false) _
    (settingT_sub (by decide +kernel) (by decide +kernel) (by decide +kernel)) (by decide +kernel)
    (turnsT_ok _ (by simp [turnsT])) t ht

end Verif.Msg.Toy

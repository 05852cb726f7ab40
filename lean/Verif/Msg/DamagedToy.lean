import Verif.Msg.Damaged
import Verif.Msg.TwoWayToy
/-
A case that meets the hypotheses of C152.
-/
set_option autoImplicit false
namespace Verif.Msg.Toy
open Two

/-- Of the first message a copy without body arrives first; the second user answers twice; the second
answer arrives with other bytes in place of its body and then as sent; the first user writes again;
the first message arrives as sent, and damaged once more. -/
def dactsT : List DAct :=
  [.plain (.send true (roundT 10 [104, 105] true false)), .plain (.send false (roundT 20 [1] false true)),
    .damaged true 0 [] (tkey 30), .plain (.send false (roundT 31 [120] true true)),
    .plain (.send false (roundT 41 [] false true)), .damaged false 1 [5, 6, 7] (tkey 51),
    .plain (.deliver false 1 (tkey 52)), .plain (.send true (roundT 61 [7] true true)),
    .plain (.deliver true 0 (tkey 71)), .damaged true 0 [9] (tkey 72)]

theorem dactsT_draws : draws (dactsT.map DAct.act) = draws actsT := rfl

theorem dactsT_ok : ∀ a ∈ dactsT,
    a.OK PE linkT { uid0 with sigKey := sigKeyE } { uid0 with sigKey := sigKeyE } := by
  intro a ha
  simp only [dactsT, List.mem_cons, List.not_mem_nil, or_false] at ha
  rcases ha with rfl | rfl | rfl | rfl | rfl | rfl | rfl | rfl | rfl | rfl <;>
    first
    | exact trivial
    | exact ⟨roundT_ok _ _ _ _, roundT_fits linkT_ok rfl (by decide) _ _ (by decide) _ _⟩
    | exact ⟨roundT_ok _ _ _ _, roundT_fits linkT_okB rfl (by decide) _ _ (by decide) _ _⟩

example : DAgree PE linkT [] [] ⟨[], [], [], [], false⟩ dactsT (dtalk PE linkT ⟨storeTA, storeTB, [], []⟩ dactsT) :=
  C152_damaged_partial dactsT (by rw [dactsT_draws]; exact settingT) (by rw [dactsT_draws]; exact keysT_nodup)
    dactsT_ok (by decide)

end Verif.Msg.Toy

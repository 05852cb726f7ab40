import Verif.Msg.TwoWayRefresh
import Verif.Msg.TwoWayToy
/-
Cases that meet the hypotheses of C146.
-/
set_option autoImplicit false
namespace Verif.Msg.Toy
open Two

theorem settingT_sub {K : List Bytes} (h : ∀ x ∈ K, x ∈ keysT) (h1 : tkey 1 ∈ K) (h2 : tkey 2 ∈ K) :
    Setting PE linkT { uid0 with sigKey := sigKeyE } { uid0 with sigKey := sigKeyE } K storeTA storeTB :=
  let S := settingT
  let sub : ∀ {L : Link}, Keys PE L keysT → L.aPriv ∈ K → L.bPriv ∈ K → Keys PE L K := fun k ha hb =>
    ⟨ha, hb, fun x hx => k.len x (h x hx), fun x hx y hy => k.inj x (h x hx) y (h y hy),
      fun x hx y hy x' hx' y' hy' => k.skey x (h x hx) y (h y hy) x' (h x' hx') y' (h y' hy')⟩
  ⟨S.prims, S.a, S.b, sub S.keysA h1 h2, sub S.keysB h2 h1, S.parse, startT.meet _, S.noPub,
    fun x hx => S.privA x (h x hx), fun x hx => S.privB x (h x hx), fun x hx => S.newA x (h x hx),
    fun x hx => S.newB x (h x hx)⟩

/-- The answer is written but not yet opened when the second message is written; both are opened
later, and two more messages are exchanged. -/
def stuckT : List Act :=
      [.send true (roundT 10 [104, 105] true false), .deliver true 0 (tkey 30),
        .send false (roundT 20 [120] false true), .send true (roundT 31 [] true true),
        .deliver false 0 (tkey 51), .deliver true 1 (tkey 52), .send false (roundT 41 [1] true true),
        .deliver false 1 (tkey 71), .send true (roundT 61 [2] false false), .deliver true 2 (tkey 72)]

example : UsesA PE linkT (after PE linkT ⟨storeTA, storeTB, [], []⟩ stuckT) (tkey 11) (tkey 3) ∧
    UsesB PE linkT (after PE linkT ⟨storeTA, storeTB, [], []⟩ stuckT) (tkey 3) (tkey 11) := by
  refine C146_never_refreshed_violated (roundT 10 [104, 105] true false) (roundT 31 [] true true) (tkey 30)
    [.send false (roundT 20 [120] false true)]
    [.deliver false 0 (tkey 51), .deliver true 1 (tkey 52), .send false (roundT 41 [1] true true),
        .deliver false 1 (tkey 71), .send true (roundT 61 [2] false false), .deliver true 2 (tkey 72)]
    (settingT_sub (by decide +kernel) (by decide +kernel) (by decide +kernel)) (by decide +kernel) ?_
    (by decide) (by simp [Act.notToA]) rfl
  intro a ha
  simp only [List.mem_cons, List.mem_append, List.not_mem_nil, or_false] at ha
  rcases ha with rfl | rfl | rfl | rfl | rfl | rfl | rfl | rfl | rfl | rfl <;>
    first
    | exact trivial
    | exact ⟨roundT_ok _ _ _ _, roundT_fits linkT_ok rfl (by decide) _ _ (by decide) _ _⟩
    | exact ⟨roundT_ok _ _ _ _, roundT_fits linkT_okB rfl (by decide) _ _ (by decide) _ _⟩

def turnsT : List Act :=
      [.send true (roundT 10 [104, 105] true false), .deliver true 0 (tkey 30),
        .send false (roundT 20 [120] false true), .deliver false 0 (tkey 51),
        .send true (roundT 31 [] true true), .deliver true 1 (tkey 52),
        .send false (roundT 41 [1] true false), .deliver false 1 (tkey 71)]

example : UsesA PE linkT (after PE linkT ⟨storeTA, storeTB, [], []⟩ turnsT) (tkey 51) (tkey 30) ∧
    UsesB PE linkT (after PE linkT ⟨storeTA, storeTB, [], []⟩ turnsT) (tkey 30) (tkey 51) := by
  refine C146_turns_partial (roundT 10 [104, 105] true false) (roundT 20 [120] false true)
    (roundT 31 [] true true) (roundT 41 [1] true false) (tkey 30) (tkey 51) (tkey 52) (tkey 71) turnsT rfl
    (settingT_sub (by decide +kernel) (by decide +kernel) (by decide +kernel)) (by decide +kernel) ?_
  intro a ha
  simp only [turnsT, List.mem_cons, List.not_mem_nil, or_false] at ha
  rcases ha with rfl | rfl | rfl | rfl | rfl | rfl | rfl | rfl <;>
    first
    | exact trivial
    | exact ⟨roundT_ok _ _ _ _, roundT_fits linkT_ok rfl (by decide) _ _ (by decide) _ _⟩
    | exact ⟨roundT_ok _ _ _ _, roundT_fits linkT_okB rfl (by decide) _ _ (by decide) _ _⟩

end Verif.Msg.Toy

import Verif.Msg.Crossing
import Verif.Msg.TwoWayToy
/-
A case that meets the hypotheses of C148.
-/
set_option autoImplicit false
namespace Verif.Msg.Toy
open Two

/-- The stores of two users who have each other's KeyInit. -/
def storeCA : MemStore :=
  { MemStore.new with
    pubs := upd (fun _ => none) bobT.identity (some (initDHKey PE (tkey 3)).public)
    privs := upd (fun _ => none) (keyHash PE (tkey 72)) (some (initDHKey PE (tkey 72))) }
def storeCB : MemStore :=
  { MemStore.new with
    pubs := upd (fun _ => none) aliceT.identity (some (initDHKey PE (tkey 72)).public)
    privs := upd (fun _ => none) (keyHash PE (tkey 3)) (some (initDHKey PE (tkey 3))) }

/-- Both users write before reading anything; both first messages are read, both answer, the answers
are read, and the second user's first message is given to the first user again. -/
def crossT : List Act :=
  [.send true (roundT 10 [104, 105] true false), .send false (roundT 20 [120] false true),
    .deliver false 0 (tkey 51), .deliver true 0 (tkey 30), .send false (roundT 41 [1] true true),
    .send true (roundT 31 [] true true), .deliver false 1 (tkey 52), .deliver true 1 (tkey 71),
    .deliver false 0 (tkey 61)]

theorem privT {i : UInt8} (hi : tkey i ∈ keysT) {x : Bytes} (hx : x ∈ keysT) {ke : KeyEntry}
    (h : upd (fun _ => none) (keyHash PE (tkey i)) (some (initDHKey PE (tkey i))) (keyHash PE x) = some ke) :
    ke = initDHKey PE x := by
  by_cases e : keyHash PE x = keyHash PE (tkey i)
  · have := keyHash_inj x hx (tkey i) hi e
    subst this
    rw [upd_same] at h
    exact (Option.some.inj h).symm
  · rw [upd_other _ _ e] at h
    cases h

theorem contactT {K : List Bytes} (h : ∀ x ∈ K, x ∈ keysT) (h1 : tkey 1 ∈ K) (h2 : tkey 2 ∈ K) :
    Contact PE linkT (tkey 72) { uid0 with sigKey := sigKeyE } { uid0 with sigKey := sigKeyE } K storeCA
      storeCB :=
  let sub : ∀ {L : Link}, Keys PE L keysT → L.aPriv ∈ K → L.bPriv ∈ K → Keys PE L K := fun k ha hb =>
    ⟨ha, hb, fun x hx => k.len x (h x hx), fun x hx y hy => k.inj x (h x hx) y (h y hy),
      fun x hx y hy x' hx' y' hy' => k.skey x (h x hx) y (h y hy) x' (h x' hx') y' (h y' hy')⟩
  { prims := PE_good
    a := linkT_ok
    b := linkT_okB
    keysA := sub keysT_okA h1 h2
    keysB := sub keysT_okB h2 h1
    parse := emarshal_parse
    order := by decide
    meetA := ⟨rfl, rfl, fun _ _ _ _ => rfl, fun _ _ _ _ => rfl,
      upd_same (fun _ => none) bobT.identity _, upd_same (fun _ => none) (keyHash PE (tkey 3)) _⟩
    meetB := ⟨rfl, rfl, fun _ _ _ _ => rfl, fun _ _ _ _ => rfl,
      upd_same (fun _ => none) aliceT.identity _, upd_same (fun _ => none) (keyHash PE (tkey 72)) _⟩
    privA := fun x hx ke he => privT (i := 72) (by decide +kernel) (h x hx) he
    privB := fun x hx ke he => privT (i := 3) (by decide +kernel) (h x hx) he
    newA := fun _ _ => rfl
    newB := fun _ _ => rfl }

example : FreeRun PE linkT ⟨[], [], [], []⟩ crossT (talk PE linkT ⟨storeCA, storeCB, [], []⟩ crossT) := by
  refine C148_crossing_partial crossT
    (contactT (by decide +kernel) (by decide +kernel) (by decide +kernel)) (by decide +kernel) ?_ (by decide)
  intro a ha
  simp only [crossT, List.mem_cons, List.not_mem_nil, or_false] at ha
  rcases ha with rfl | rfl | rfl | rfl | rfl | rfl | rfl | rfl | rfl <;>
    first
    | exact trivial
    | exact ⟨roundT_ok _ _ _ _, roundT_fits linkT_ok rfl (by decide) _ _ (by decide) _ _⟩
    | exact ⟨roundT_ok _ _ _ _, roundT_fits linkT_okB rfl (by decide) _ _ (by decide) _ _⟩

end Verif.Msg.Toy

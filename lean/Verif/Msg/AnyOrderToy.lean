import Verif.Msg.AnyOrder
import Verif.Msg.ToyCodec
/-
Cases that meet the hypotheses of C142.
-/
set_option autoImplicit false
namespace Verif.Msg.Toy

theorem roundsE_ok : ∀ r ∈ roundsE, r.OK PE { uid0 with sigKey := sigKeyE } := by
  intro r hr
  simp only [roundsE, List.mem_cons, List.not_mem_nil, or_false] at hr
  rcases hr with rfl | rfl | rfl <;> exact roundE_ok _ _ _

theorem roundsE_fits : ∀ r ∈ roundsE, r.Fits PE linkE := by
  intro r hr
  simp only [roundsE, List.mem_cons, List.not_mem_nil, or_false] at hr
  rcases hr with rfl | rfl | rfl <;> exact roundE_fits _ _ (by simp) _

theorem roundsE_first : FirstDifferent PE linkE roundsE := by
  intro r hr
  obtain rfl : roundE 1 [104, 105] true = r := Option.some.inj hr
  decide +kernel

theorem roundsE_apart : Apart PE linkE roundsE (roundE 3 [120] true) [40, 3] where
  now := by decide +kernel
  next := by
    intro r hr _
    simp only [roundsE, List.mem_cons, List.not_mem_nil, or_false] at hr
    rcases hr with rfl | rfl | rfl <;> exact ⟨by decide +kernel, by decide +kernel⟩

/-- Three messages arrive in the order 3, 1, 1, 2: all are delivered, the second copy is refused. -/
example : ∃ ws A', sendAll PE linkE roundsE storeA = some (ws, A') ∧
    openAll PE linkE [([40, 3], ws.getD 2 []), ([41], ws.getD 0 []), ([42], ws.getD 0 []),
      ([43], ws.getD 1 [])] storeB =
      [some ([120], aliceE.identity, sigOf PE (some sigPub) [120]),
        some ([104, 105], aliceE.identity, sigOf PE (some sigPub) [104, 105]), none,
        some ([], aliceE.identity, [])] := by
  obtain ⟨ws, A', h⟩ := sendAll_succeeds PE_good linkE_ok roundsE roundsE_ok roundsE_fits roundsE_first
    (by decide) storeA storeB startE
  refine ⟨ws, A', h, ?_⟩
  have := C142_which_open PE_good linkE _ linkE_ok emarshal_parse roundsE roundsE_ok roundsE_first (by decide)
    storeA storeB A' startE ws h [(2, [40, 3]), (0, [41]), (0, [42]), (1, [43])]
    (by intro x hx
        simp only [List.mem_cons, List.not_mem_nil, or_false] at hx
        rcases hx with rfl | rfl | rfl | rfl <;> decide)
    (by intro x hx r hr
        obtain rfl : (2, [40, 3]) = x := Option.some.inj hx
        obtain rfl : roundE 3 [120] true = r := Option.some.inj hr
        exact roundsE_apart)
  exact this

/-- The messages of one batch, newest first. -/
example : ∃ ws A', sendAll PE linkE roundsE storeA = some (ws, A') ∧
    openAll PE linkE [([40, 3], ws.getD 2 []), ([41], ws.getD 1 []), ([42], ws.getD 0 [])] storeB =
      [some ([120], aliceE.identity, sigOf PE (some sigPub) [120]), some ([], aliceE.identity, []),
        some ([104, 105], aliceE.identity, sigOf PE (some sigPub) [104, 105])] := by
  obtain ⟨ws, A', h⟩ := sendAll_succeeds PE_good linkE_ok roundsE roundsE_ok roundsE_fits roundsE_first
    (by decide) storeA storeB startE
  refine ⟨ws, A', h, ?_⟩
  have := C142_any_order_partial PE_good linkE _ linkE_ok emarshal_parse roundsE roundsE_ok roundsE_first
    (by decide) storeA storeB A' startE ws h [(2, [40, 3]), (1, [41]), (0, [42])]
    (by intro x hx
        simp only [List.mem_cons, List.not_mem_nil, or_false] at hx
        rcases hx with rfl | rfl | rfl <;> decide)
    (by intro x hx r hr
        obtain rfl : (2, [40, 3]) = x := Option.some.inj hx
        obtain rfl : roundE 3 [120] true = r := Option.some.inj hr
        exact roundsE_apart)
    (by decide)
    (by intro x hx
        simp only [List.mem_cons, List.not_mem_nil, or_false] at hx
        rcases hx with rfl | rfl | rfl <;> exact .inl (by decide))
  exact this

/-- 310 messages with the default batch size: delivered in order, stuck newest first. -/
def many : List Round := List.replicate 310 (roundE 1 [120] false)

theorem many_eq {r : Round} (h : r ∈ many) : r = roundE 1 [120] false := List.eq_of_mem_replicate h

example : conversation PE linkE many storeA storeB =
      .ok (many.map fun r => (r.content, aliceE.identity, sigOf PE r.sigKey r.content)) ∧
    ∃ ws A', sendAll PE linkE many storeA = some (ws, A') ∧ ws.length = many.length ∧ ∀ k,
      openAll PE linkE ((List.range k).map fun _ => ([44], ws.getD (many.length - 1) [])) storeB =
        List.replicate k none := by
  have hlen : many.length = 310 := List.length_replicate
  refine C142_newest_first_violated PE_good linkE _ linkE_ok emarshal_parse many
    (fun r hr => by rw [many_eq hr]; exact roundE_ok _ _ _)
    (fun r hr => by rw [many_eq hr]; exact roundE_fits _ _ (by simp) _) ?_ (by omega)
    (by rw [hlen]; decide) ?_ storeA storeB startE (fun _ => [44]) ?_
  · intro r hr
    obtain rfl : roundE 1 [120] false = r := Option.some.inj hr
    decide +kernel
  · rw [hlen]
    have : stuckAt (effKeys linkE.nB).toNat = 400 := by
      rw [show (effKeys linkE.nB).toNat = 50 from rfl, stuckAt_small (by omega) (by omega),
        stuckAt_small (by omega) (by omega), stuckAt_small (by omega) (by omega), stuckAt_big (by omega)]
    omega
  · intro r hr
    obtain rfl := many_eq (List.mem_of_getElem? hr)
    refine ⟨?_, fun r' hr' hn => ?_⟩
    · show AllDifferent [_, _, PE.dhPub [20, 1], _, _]
      decide +kernel
    · rw [many_eq hr'] at hn; cases hn

end Verif.Msg.Toy

import Verif.Msg.TwoWayTalk
/-
C146: whether the keys of a conversation are refreshed.
-/
set_option autoImplicit false
namespace Verif.Msg
open Prog
namespace Two

/-! ### The program and the specification -/

/-- The stores and messages after a list of actions. -/
def after (P : Prims) (L : Link) : Talk → List Act → Talk
  | t, [] => t
  | t, a :: as => after P L (act P L t a).1 as

/-- The first user encrypts with the own session key `a` for the key `b` of the second. -/
def UsesA (P : Prims) (L : Link) (t : Talk) (a b : Bytes) : Prop :=
  ∃ ss, t.A.states (L.stateKeyA P) = some ss ∧ ss.senderSessionPub = initDHKey P a ∧
    ss.recipientTemp = (initDHKey P b).public

/-- The second user encrypts with the own session key `b` for the key `a` of the first. -/
def UsesB (P : Prims) (L : Link) (t : Talk) (b a : Bytes) : Prop :=
  ∃ ss, t.B.states (L.stateKeyB P) = some ss ∧ ss.senderSessionPub = initDHKey P b ∧
    ss.recipientTemp = (initDHKey P a).public

/-- The action gives nothing to the first user. -/
def Act.notToA : Act → Bool
  | .deliver false _ _ => false
  | _ => true

/-! ### Proof -/

theorem after_append (P : Prims) (L : Link) (as bs : List Act) (t : Talk) :
    after P L t (as ++ bs) = after P L (after P L t as) bs := by
  induction as generalizing t with
  | nil => rfl
  | cons a as ih => exact ih _

section
variable {P : Prims} {L : Link} {uidA uidB : UID} {K : List Bytes} {A0 B0 : MemStore}
  (S : Setting P L uidA uidB K A0 B0)
include S

theorem act_sendA {Uh Us : List Bytes} {G : List Sn} {v w : View} {A B : MemStore} {ra rb : List Rec}
    {gotB gotA : List Nat} (H : Both P L K uidA uidB Uh Us G v w A B ra rb gotB gotA) {r : Round}
    (ha : (Act.send true r).OK P L uidA uidB) (hra : ra.length < 2 ^ 62) {as : List Act}
    (dr : Draws L K Uh Us (draws (.send true r :: as))) :
    ∃ A' v' m, (act P L ⟨A, B, ra.map Rec.wire, rb.map Rec.wire⟩ (.send true r)).1 =
        ⟨A', B, (ra ++ [m]).map Rec.wire, rb.map Rec.wire⟩ ∧
      (m.j = v.cur ∧ m.nx = v.drawn r ∧ m.sn = v.sn ∧ v'.cur = v.cur ∧ v'.nx = v.drawn r ∧
        v'.sn = v.sn) ∧
      Both P L K uidA uidB (r.rnd.headerPriv :: Uh) (r.rnd.sessPriv :: r.rnd.nextPriv :: Us) G v' w A' B
        (ra ++ [m]) rb gotB gotA := by
  obtain ⟨A', v', m, e1, ⟨-, a1, a2, a3, a4, a5, a6, -⟩, e3⟩ := H.send S.prims S.a S.keysA ha hra dr
  refine ⟨A', v', m, ?_, ⟨a1, a2, a3, a4, a5, a6⟩, e3⟩
  simp only [act, e1, List.map_append, List.map_cons, List.map_nil]

theorem act_sendB {Uh Us : List Bytes} {G : List Sn} {v w : View} {A B : MemStore} {ra rb : List Rec}
    {gotB gotA : List Nat} (H : Both P L K uidA uidB Uh Us G v w A B ra rb gotB gotA) {r : Round}
    (ha : (Act.send false r).OK P L uidA uidB) (hrb : rb.length < 2 ^ 62) {as : List Act}
    (dr : Draws L K Uh Us (draws (.send false r :: as))) :
    ∃ B' w' m, (act P L ⟨A, B, ra.map Rec.wire, rb.map Rec.wire⟩ (.send false r)).1 =
        ⟨A, B', ra.map Rec.wire, (rb ++ [m]).map Rec.wire⟩ ∧
      (m.j = w.cur ∧ m.nx = w.drawn r ∧ m.sn = w.sn ∧ w'.cur = w.cur ∧ w'.nx = w.drawn r ∧
        w'.sn = w.sn) ∧
      Both P L K uidA uidB (r.rnd.headerPriv :: Uh) (r.rnd.sessPriv :: r.rnd.nextPriv :: Us) G v w' A B'
        ra (rb ++ [m]) gotB gotA := by
  obtain ⟨B', w', m, e1, ⟨-, a1, a2, a3, a4, a5, a6, -⟩, e3⟩ := H.symm.send S.prims S.b S.keysB ha hrb dr.symm
  have e3 := e3.symm
  rw [map_flip_flip] at e3
  refine ⟨B', w', m, ?_, ⟨a1, a2, a3, a4, a5, a6⟩, e3⟩
  simp only [act, e1, List.map_append, List.map_cons, List.map_nil]

theorem act_toB {Uh Us : List Bytes} {G : List Sn} {v w : View} {A B : MemStore} {ra rb : List Rec}
    {gotB gotA : List Nat} (H : Both P L K uidA uidB Uh Us G v w A B ra rb gotB gotA)
    (hra : ra.length < 2 ^ 62) (hrb : rb.length < 2 ^ 62) {x : Nat} {fresh : Bytes} {as : List Act}
    (dr : Draws L K Uh Us (draws (.deliver true x fresh :: as))) {m : Rec} (hm : ra[x]? = some m) :
    ∃ B' G' w' gotB', (act P L ⟨A, B, ra.map Rec.wire, rb.map Rec.wire⟩ (.deliver true x fresh)).1 =
        ⟨A, B', ra.map Rec.wire, rb.map Rec.wire⟩ ∧
      (∃ w0, recvStep P L.flip fresh m.nx m.sn m.j (G.map Sn.flip) w = (G'.map Sn.flip, w0) ∧
        w'.cur = w0.cur ∧ w'.nx = w0.nx ∧ w'.sn = w0.sn) ∧
      Both P L K uidA uidB Uh (fresh :: Us) G' v w' A B' ra rb gotB' gotA := by
  have hw : (ra.map Rec.wire)[x]? = some m.wire := by rw [List.getElem?_map, hm]; rfl
  obtain ⟨B', G', w', ⟨w0, a1, a2, a3, a4, -⟩, ⟨-, e1, e2⟩ | ⟨-, e1, e2⟩⟩ := H.deliver S.prims S.a S.b S.keysB S.parse hra hrb dr hm
  · exact ⟨B', G', w', _, by simp only [act, hw, e1], ⟨w0, a1, a2, a3, a4⟩, e2⟩
  · exact ⟨B', G', w', _, by simp only [act, hw, e1], ⟨w0, a1, a2, a3, a4⟩, e2⟩

theorem act_toA {Uh Us : List Bytes} {G : List Sn} {v w : View} {A B : MemStore} {ra rb : List Rec}
    {gotB gotA : List Nat} (H : Both P L K uidA uidB Uh Us G v w A B ra rb gotB gotA)
    (hra : ra.length < 2 ^ 62) (hrb : rb.length < 2 ^ 62) {x : Nat} {fresh : Bytes} {as : List Act}
    (dr : Draws L K Uh Us (draws (.deliver false x fresh :: as))) {m : Rec} (hm : rb[x]? = some m) :
    ∃ A' G' v' gotA', (act P L ⟨A, B, ra.map Rec.wire, rb.map Rec.wire⟩ (.deliver false x fresh)).1 =
        ⟨A', B, ra.map Rec.wire, rb.map Rec.wire⟩ ∧
      (∃ v0, recvStep P L fresh m.nx m.sn m.j G v = (G', v0) ∧
        v'.cur = v0.cur ∧ v'.nx = v0.nx ∧ v'.sn = v0.sn) ∧
      Both P L K uidA uidB Uh (fresh :: Us) G' v' w A' B ra rb gotB gotA' := by
  have hw : (rb.map Rec.wire)[x]? = some m.wire := by rw [List.getElem?_map, hm]; rfl
  obtain ⟨A', G', v', ⟨v0, e0, a2, a3, a4, -⟩, e⟩ := H.symm.deliver S.prims S.b S.a S.keysA S.parse hrb hra dr.symm hm
  rw [map_flip_flip] at e0
  have e0 : recvStep P L fresh m.nx m.sn m.j G v = (G'.map Sn.flip, v0) := e0
  rcases e with ⟨-, e1, e2⟩ | ⟨-, e1, e2⟩
  · exact ⟨A', G'.map Sn.flip, v', _, by simp only [act, hw, e1], ⟨v0, e0, a2, a3, a4⟩, e2.symm⟩
  · exact ⟨A', G'.map Sn.flip, v', _, by simp only [act, hw, e1], ⟨v0, e0, a2, a3, a4⟩, e2.symm⟩

end

/-- The second user has drawn a next key on its own, neither has seen one of the other (`all`: the first
user has drawn one too). -/
inductive Half (P : Prims) (L : Link) (K : List Bytes) (uidA uidB : UID) (s : Bytes) (Uh Us : List Bytes)
    (all : Bool) : Talk → List Rec → List Rec → Prop where
  | mk {G : List Sn} {v w : View} {A B : MemStore} {ra rb : List Rec} {gotB gotA : List Nat} :
      Both P L K uidA uidB Uh Us G v w A B ra rb gotB gotA → G[0]? = some (firstSn P L s) →
      v.cur = 0 → w.cur = 0 → w.nx ≠ none → v.sn = none → w.sn = none → (∀ m ∈ ra, m.sn = none) →
      (∀ m ∈ rb, m.sn = none) → (all = true → v.nx ≠ none) →
      Half P L K uidA uidB s Uh Us all ⟨A, B, ra.map Rec.wire, rb.map Rec.wire⟩ ra rb

theorem recv_stays {P : Prims} {M : Link} {fresh : Bytes} {nx : Option Bytes} {j : Nat} {G : List Sn}
    {v : View} (hj : j ≤ 0) (hc : v.cur = 0) (hn : v.nx ≠ none) :
    recvStep P M fresh nx none j G v = (G, v) := by
  obtain rfl : j = 0 := by omega
  unfold recvStep
  rw [if_pos hc.symm]
  obtain ⟨y, hy⟩ := Option.ne_none_iff_exists'.mp hn
  rw [hy]
  cases nx with
  | none => rfl
  | some x => simp

theorem drawn_keeps {v : View} {r : Round} (h : v.nx ≠ none) : v.drawn r ≠ none := by
  unfold View.drawn
  split
  · simp
  · exact h

theorem drawn_new {v : View} {r : Round} (h : r.rnd.newSession = true) : v.drawn r ≠ none := by
  unfold View.drawn
  rw [h]
  cases v.nx <;> simp

theorem map_flip_inj {G G' : List Sn} (h : G.map Sn.flip = G'.map Sn.flip) : G = G' := by
  rw [← map_flip_flip G, h, map_flip_flip]

theorem Half.step {P : Prims} {L : Link} {uidA uidB : UID} {K : List Bytes} {A0 B0 : MemStore}
    (S : Setting P L uidA uidB K A0 B0) {s : Bytes} {Uh Us : List Bytes} {all : Bool} {t : Talk}
    {ra rb : List Rec} (F : Half P L K uidA uidB s Uh Us all t ra rb) (a : Act) (as : List Act)
    (ha : a.OK P L uidA uidB) (hra : ra.length < 2 ^ 62) (hrb : rb.length < 2 ^ 62)
    (dr : Draws L K Uh Us (draws (a :: as))) (hw : all = true ∨ a.notToA = true) :
    ∃ ra' rb' Uh' Us', (∀ b, (all = true ∨ (∃ r, a = .send true r ∧ r.rnd.newSession = true) ∨ b = false) →
        Half P L K uidA uidB s Uh' Us' b (act P L t a).1 ra' rb') ∧
      Draws L K Uh' Us' (draws as) ∧ ra'.length ≤ ra.length + 1 ∧ rb'.length ≤ rb.length + 1 := by
  obtain ⟨H, hG, hv, hw0, hwn, hvs, hws, hma, hmb, hall⟩ := F
  cases a with
  | send fromA r =>
    cases fromA with
    | true =>
      obtain ⟨A', v', m, e1, ⟨i1, i2, i3, i4, i5, i6⟩, e3⟩ := act_sendA S H ha hra dr
      refine ⟨ra ++ [m], rb, _, _, fun b hb => ?_, dr.send, by simp, by omega⟩
      rw [e1]
      refine .mk e3 hG (by omega) hw0 hwn (by rw [i6, hvs]) hws ?_ hmb ?_
      · intro m' hm'
        rcases List.mem_append.mp hm' with h | h
        · exact hma _ h
        · rw [List.mem_singleton.mp h, i3, hvs]
      · intro hb'
        rw [i5]
        rcases hb with h | ⟨r', h, hr⟩ | h
        · exact drawn_keeps (hall h)
        · cases h
          exact drawn_new hr
        · rw [h] at hb'; cases hb'
    | false =>
      obtain ⟨B', w', m, e1, ⟨i1, i2, i3, i4, i5, i6⟩, e3⟩ := act_sendB S H ha hrb dr
      refine ⟨ra, rb ++ [m], _, _, fun b hb => ?_, dr.send, by omega, by simp⟩
      rw [e1]
      refine .mk e3 hG hv (by omega) (by rw [i5]; exact drawn_keeps hwn) hvs (by rw [i6, hws]) hma ?_ ?_
      · intro m' hm'
        rcases List.mem_append.mp hm' with h | h
        · exact hmb _ h
        · rw [List.mem_singleton.mp h, i3, hws]
      · intro hb'
        rcases hb with h | ⟨r', h, hr⟩ | h
        · exact hall h
        · cases h
        · rw [h] at hb'; cases hb'
  | deliver toB x fresh =>
    have hbb : ∀ b, (all = true ∨ (∃ r, Act.deliver toB x fresh = .send true r ∧ r.rnd.newSession = true) ∨
        b = false) → b = true → all = true := by
      intro b hb hb'
      rcases hb with h | ⟨r', h, hr⟩ | h
      · exact h
      · cases h
      · rw [h] at hb'; cases hb'
    cases toB with
    | true =>
      cases hm : ra[x]? with
      | none =>
        have : (ra.map Rec.wire)[x]? = none := by rw [List.getElem?_map, hm]; rfl
        refine ⟨ra, rb, _, _, fun b hb => ?_, dr.deliver, by omega, by omega⟩
        simp only [act, this]
        exact .mk (H.more (fun _ h => h) (fun x hx => by simp [hx])) hG hv hw0 hwn hvs hws hma hmb
          (fun h => hall (hbb b hb h))
      | some m =>
        obtain ⟨B', G', w', gotB', e1, ⟨w0, e2, e3, e4, e5⟩, e6⟩ := act_toB S H hra hrb dr hm
        have hmem := List.mem_of_getElem? hm
        have hj := (H.dA.ok m hmem).cur
        rw [hma m hmem, recv_stays (by omega) hw0 hwn] at e2
        obtain ⟨g1, g2⟩ := Prod.mk.inj e2
        have g1 := map_flip_inj g1
        subst g1 g2
        refine ⟨ra, rb, _, _, fun b hb => ?_, dr.deliver, by omega, by omega⟩
        rw [e1]
        exact .mk e6 hG hv (by omega) (by rw [e4]; exact hwn) hvs (by rw [e5]; exact hws) hma hmb
          (fun h => hall (hbb b hb h))
    | false =>
      have hall := hall (hw.resolve_right (by simp [Act.notToA]))
      cases hm : rb[x]? with
      | none =>
        have : (rb.map Rec.wire)[x]? = none := by rw [List.getElem?_map, hm]; rfl
        refine ⟨ra, rb, _, _, fun b hb => ?_, dr.deliver, by omega, by omega⟩
        simp only [act, this]
        exact .mk (H.more (fun _ h => h) (fun x hx => by simp [hx])) hG hv hw0 hwn hvs hws hma hmb
          (fun _ => hall)
      | some m =>
        obtain ⟨A', G', v', gotA', e1, ⟨v0, e2, e3, e4, e5⟩, e6⟩ := act_toA S H hra hrb dr hm
        have hmem := List.mem_of_getElem? hm
        have hj := (H.dB.ok m hmem).cur
        rw [hmb m hmem, recv_stays (by omega) hv hall] at e2
        obtain ⟨g1, g2⟩ := Prod.mk.inj e2
        subst g1 g2
        refine ⟨ra, rb, _, _, fun b hb => ?_, dr.deliver, by omega, by omega⟩
        rw [e1]
        exact .mk e6 hG (by omega) hw0 hwn (by rw [e5]; exact hvs) hws hma hmb
          (fun _ => by rw [e4]; exact hall)

theorem Half.steps {P : Prims} {L : Link} {uidA uidB : UID} {K : List Bytes} {A0 B0 : MemStore}
    (S : Setting P L uidA uidB K A0 B0) {s : Bytes} (all : Bool) : ∀ (as bs : List Act) {Uh Us : List Bytes}
    {t : Talk} {ra rb : List Rec}, Half P L K uidA uidB s Uh Us all t ra rb →
    (∀ a ∈ as, a.OK P L uidA uidB) → ra.length + as.length < 2 ^ 62 → rb.length + as.length < 2 ^ 62 →
    Draws L K Uh Us (draws (as ++ bs)) → (all = true ∨ ∀ a ∈ as, a.notToA = true) →
    ∃ ra' rb' Uh' Us', Half P L K uidA uidB s Uh' Us' all (after P L t as) ra' rb' ∧
      Draws L K Uh' Us' (draws bs) ∧ ra'.length ≤ ra.length + as.length ∧
      rb'.length ≤ rb.length + as.length := by
  intro as bs
  induction as with
  | nil => intro Uh Us t ra rb F _ _ _ dr _; exact ⟨ra, rb, Uh, Us, F, dr, by simp, by simp⟩
  | cons a as ih =>
    intro Uh Us t ra rb F ha hra hrb dr hw
    rw [List.length_cons] at hra hrb
    obtain ⟨ra', rb', Uh', Us', e1, e2, e3, e4⟩ := F.step S a (as ++ bs) (ha a (by simp)) (by omega)
      (by omega) dr (hw.imp_right fun h => h a (by simp))
    obtain ⟨ra2, rb2, Uh2, Us2, f1, f2, f3, f4⟩ := ih (e1 all (by cases all <;> simp))
      (fun a h => ha a (by simp [h])) (by omega) (by omega) e2
      (hw.imp_right fun h a ha => h a (by simp [ha]))
    exact ⟨ra2, rb2, Uh2, Us2, f1, f2, by rw [List.length_cons]; omega, by rw [List.length_cons]; omega⟩

theorem Half.uses {P : Prims} {L : Link} {uidA uidB : UID} {K : List Bytes} {s : Bytes} {Uh Us : List Bytes}
    {all : Bool} {t : Talk} {ra rb : List Rec} (F : Half P L K uidA uidB s Uh Us all t ra rb) :
    UsesA P L t s L.kPriv ∧ UsesB P L t L.kPriv s := by
  obtain ⟨H, hG, hv, hw0, hwn, hvs, hws, hma, hmb, hall⟩ := F
  constructor
  · obtain ⟨ss, s0, h1, h2, h3⟩ := H.IA.state
    rw [hv, hG] at h1
    obtain rfl := Option.some.inj h1
    exact ⟨ss, h2, h3.own, h3.peer⟩
  · obtain ⟨ss, s0, h1, h2, h3⟩ := H.IB.state
    rw [hw0, get_flip hG] at h1
    obtain rfl := Option.some.inj h1
    exact ⟨ss, h2, h3.own, h3.peer⟩

theorem draws_start {L : Link} {as : List Act} (hnd : (L.aPriv :: L.bPriv :: L.kPriv :: draws as).Nodup) :
    Draws L (L.aPriv :: L.bPriv :: L.kPriv :: draws as) [] [L.kPriv] (draws as) := by
  simp only [List.nodup_cons, List.mem_cons, not_or] at hnd
  obtain ⟨⟨n1, n2, n3⟩, ⟨n4, n5⟩, n6, n7⟩ := hnd
  refine ⟨fun x h => absurd h (by simp), ?_, ?_, n1, n7⟩
  · intro x hx
    rw [List.mem_singleton] at hx; subst hx
    exact ⟨by simp, fun e => n2 e.symm, fun e => n4 e.symm, n6⟩
  · intro x hx
    exact ⟨by simp [hx], fun e => n3 (e ▸ hx), fun e => n5 (e ▸ hx)⟩

/-- The first message is sent and opened. -/
theorem first_half {P : Prims} {L : Link} {uidA uidB : UID} {K : List Bytes} {A0 B0 : MemStore}
    (S : Setting P L uidA uidB K A0 B0) {r : Round} {fresh : Bytes} {bs : List Act} {Uh Us : List Bytes}
    (hr : (Act.send true r).OK P L uidA uidB) (hk : L.kPriv ∈ Us)
    (dr : Draws L K Uh Us (draws (.send true r :: .deliver true 0 fresh :: bs))) :
    ∃ A B v w m gotB Uh' Us', after P L ⟨A0, B0, [], []⟩ [.send true r, .deliver true 0 fresh] =
        ⟨A, B, [m].map Rec.wire, ([] : List Rec).map Rec.wire⟩ ∧
      Both P L K uidA uidB Uh' Us' [firstSn P L r.rnd.sessPriv] v w A B [m] [] gotB [] ∧
      Draws L K Uh' Us' (draws bs) ∧ v.cur = 0 ∧ w.cur = 0 ∧ v.nx = none ∧ w.nx = some fresh ∧ v.sn = none ∧
      w.sn = none ∧ m.sn = none := by
  have hP := S.prims
  obtain ⟨A', v, m, e1, e2, e3, e4, e5, e6, -, e7, e8⟩ := S.firstSend hr hk dr
  have dr' := dr.send
  have key := S.firstDeliver e3 e4 e5 e6 (by simp [hk]) e7 e8 (by simp) dr' (x := 0) (m := m) rfl
  obtain ⟨B', G', w', ⟨-, f0⟩, f⟩ := key
  obtain ⟨rfl, f2, f3, f4⟩ := f0 e2.2.1
  rcases f with ⟨g1, g2⟩ | ⟨-, g1, g2⟩
  · exact ⟨A', B', v, w', m, _, _, _, by simp only [after, act, e1, List.nil_append, List.getElem?_cons_zero, g1]; rfl,
      g2, dr'.deliver, e4, f2, e2.2.2.2, f3, e5, f4, e2.2.2.1⟩
  · exact ⟨A', B', v, w', m, _, _, _, by simp only [after, act, e1, List.nil_append, List.getElem?_cons_zero, g1]; rfl,
      g2, dr'.deliver, e4, f2, e2.2.2.2, f3, e5, f4, e2.2.2.1⟩

/-- C146, violated: after the first message was opened, the sender writes another one, for which the
library decides to announce a new session, before having opened an answer.  From then on, whatever
the two users send and open, both encrypt with the keys of the first contact; in particular the
second user with the key of the KeyInit message. -/
theorem C146_never_refreshed_violated {P : Prims} {L : Link} {uidA uidB : UID} {A B : MemStore}
    (r r' : Round) (fresh : Bytes) (mid as : List Act)
    (S : Setting P L uidA uidB (L.aPriv :: L.bPriv :: L.kPriv ::
      draws (.send true r :: .deliver true 0 fresh :: (mid ++ .send true r' :: as))) A B)
    (hnd : (L.aPriv :: L.bPriv :: L.kPriv ::
      draws (.send true r :: .deliver true 0 fresh :: (mid ++ .send true r' :: as))).Nodup)
    (hok : ∀ a ∈ Act.send true r :: .deliver true 0 fresh :: (mid ++ .send true r' :: as),
      a.OK P L uidA uidB)
    (hlen : mid.length + as.length + 2 < 2 ^ 62) (hmid : ∀ a ∈ mid, a.notToA = true)
    (hnew : r'.rnd.newSession = true) :
    UsesA P L (after P L ⟨A, B, [], []⟩
        (.send true r :: .deliver true 0 fresh :: (mid ++ .send true r' :: as))) r.rnd.sessPriv L.kPriv ∧
      UsesB P L (after P L ⟨A, B, [], []⟩
        (.send true r :: .deliver true 0 fresh :: (mid ++ .send true r' :: as))) L.kPriv r.rnd.sessPriv := by
  obtain ⟨A', B', v, w, m, gotB, Uh, Us, e1, e2, e3, e4, e5, e6, e7, e8, e9, e10⟩ :=
    first_half S (hok _ (by simp)) (by simp) (draws_start hnd)
  have e1' : after P L ⟨A, B, [], []⟩
      (.send true r :: .deliver true 0 fresh :: (mid ++ .send true r' :: as)) =
      after P L ⟨A', B', [m].map Rec.wire, ([] : List Rec).map Rec.wire⟩ (mid ++ .send true r' :: as) := by
    rw [← e1]; rfl
  rw [e1']
  have F0 : Half P L _ uidA uidB r.rnd.sessPriv Uh Us false ⟨A', B', [m].map Rec.wire, ([] : List Rec).map Rec.wire⟩
      [m] [] := .mk e2 rfl e4 e5 (by rw [e7]; simp) e8 e9 (by simpa using e10) (by simp) (by simp)
  obtain ⟨ra1, rb1, Uh1, Us1, F1, d1, l1, l2⟩ := F0.steps S false mid (.send true r' :: as)
    (fun a ha => hok a (by simp [ha])) (by simp; omega) (by simp; omega) e3 (.inr hmid)
  simp only [List.length_cons, List.length_nil] at l1 l2
  obtain ⟨ra2, rb2, Uh2, Us2, F2, d2, l3, l4⟩ := F1.step S (.send true r') as (hok _ (by simp)) (by omega)
    (by omega) d1 (.inr rfl)
  obtain ⟨ra3, rb3, Uh3, Us3, F3, -, -, -⟩ := (F2 true (.inr (.inl ⟨r', rfl, hnew⟩))).steps S true as []
    (fun a ha => hok a (by simp [ha])) (by omega) (by omega) (by simpa using d2) (.inl rfl)
  rw [after_append]
  exact F3.uses

/-- C146: if the two users take turns, and each message is opened before the next is written, then
after two messages in each direction both use new keys, whatever the random choices. -/
theorem C146_turns_partial {P : Prims} {L : Link} {uidA uidB : UID} {A B : MemStore}
    (r1 r2 r3 r4 : Round) (f1 f2 f3 f4 : Bytes) (as : List Act)
    (has : as = [.send true r1, .deliver true 0 f1, .send false r2, .deliver false 0 f2,
      .send true r3, .deliver true 1 f3, .send false r4, .deliver false 1 f4])
    (S : Setting P L uidA uidB (L.aPriv :: L.bPriv :: L.kPriv :: draws as) A B)
    (hnd : (L.aPriv :: L.bPriv :: L.kPriv :: draws as).Nodup) (hok : ∀ a ∈ as, a.OK P L uidA uidB) :
    UsesA P L (after P L ⟨A, B, [], []⟩ as) f2 f1 ∧ UsesB P L (after P L ⟨A, B, [], []⟩ as) f1 f2 := by
  subst has
  obtain ⟨A1, B1, v1, w1, m1, gotB, Uh, Us, e1, H1, d1, hv, hw, hvn, hwn, hvs, hws, hm⟩ :=
    first_half S (hok _ (by simp)) (by simp) (draws_start hnd)
  obtain ⟨B2, w2, m2, e2, ⟨i1, i2, i3, i4, i5, i6⟩, H2⟩ := act_sendB S H1 (r := r2) (hok _ (by simp))
    (by simp) d1
  have hd2 : w1.drawn r2 = some f1 := by unfold View.drawn; rw [hwn]; rfl
  have d2 := d1.send
  obtain ⟨A3, G3, v3, gotA3, e3, ⟨v0, j1, j2, j3, j4⟩, H3⟩ := act_toA S H2 (by simp) (by simp) d2
    (m := m2) rfl
  have d3 := d2.deliver
  rw [i1, i2, i3, hw, hd2, hws] at j1
  simp only [recvStep, hv, hvn, if_true] at j1
  obtain ⟨g1, g2⟩ := Prod.mk.inj j1
  have hG3 : ∃ rt, G3[1]? = some ⟨f2, f1, rt, true⟩ := ⟨_, by rw [← g1]; rfl⟩
  clear g1 j1
  subst g2
  simp only [hv] at j2 j3 j4
  obtain ⟨A4, v4, m4, e4, ⟨k1, k2, k3, k4, k5, k6⟩, H4⟩ := act_sendA S H3 (r := r3) (hok _ (by simp))
    (by simp) d3
  have d4 := d3.send
  have hd4 : v3.drawn r3 = some f2 := by unfold View.drawn; rw [j3]; rfl
  obtain ⟨B5, G5, w5, gotB5, e5, ⟨w0, l1, l2, l3, l4⟩, H5⟩ := act_toB S H4 (by simp) (by simp) d4
    (m := m4) rfl
  have d5 := d4.deliver
  rw [k1, k2, k3, hd4, j2, j4] at l1
  simp only [recvStep, i4, hw, i5, hd2, if_true] at l1
  obtain ⟨g1, g2⟩ := Prod.mk.inj l1
  obtain rfl := map_flip_inj g1
  clear g1 l1
  subst g2
  simp only [i4, hw] at l2 l3 l4
  obtain ⟨B6, w6, m6, e6, ⟨n1, n2, n3, n4, n5, n6⟩, H6⟩ := act_sendB S H5 (r := r4) (hok _ (by simp))
    (by simp) d5
  have d6 := d5.send
  obtain ⟨A7, G7, v7, gotA7, e7, ⟨v00, o1, o2, o3, o4⟩, H7⟩ := act_toA S H6 (by simp) (by simp) d6
    (m := m6) rfl
  rw [n1, l2] at o1
  simp only [recvStep, k4, j2] at o1
  simp only [show (0 + 1 = 0) = False by simp, if_false, if_true] at o1
  obtain ⟨g1, g2⟩ := Prod.mk.inj o1
  subst g1 g2
  have fin : after P L ⟨A, B, [], []⟩ [.send true r1, .deliver true 0 f1, .send false r2, .deliver false 0 f2,
      .send true r3, .deliver true 1 f3, .send false r4, .deliver false 1 f4] =
      ⟨A7, B6, ([m1] ++ [m4]).map Rec.wire, ([] ++ [m2] ++ [m6]).map Rec.wire⟩ := by
    have e1 : after P L ⟨A, B, [], []⟩ [.send true r1, .deliver true 0 f1, .send false r2,
        .deliver false 0 f2, .send true r3, .deliver true 1 f3, .send false r4, .deliver false 1 f4] =
        after P L ⟨A1, B1, [m1].map Rec.wire, ([] : List Rec).map Rec.wire⟩ [.send false r2,
        .deliver false 0 f2, .send true r3, .deliver true 1 f3, .send false r4, .deliver false 1 f4] := by
      rw [← e1]; rfl
    rw [e1]
    simp only [after, e2, e3, e4, e5, e6, e7]
  rw [fin]
  obtain ⟨rt, hG⟩ := hG3
  constructor
  · obtain ⟨ss, s0, h1, h2, h3⟩ := H7.IA.state
    simp only [o2] at h1
    rw [hG] at h1
    obtain rfl := Option.some.inj h1
    exact ⟨ss, h2, h3.own, h3.peer⟩
  · obtain ⟨ss, s0, h1, h2, h3⟩ := H7.IB.state
    rw [n4, l2, get_flip hG] at h1
    obtain rfl := Option.some.inj h1
    exact ⟨ss, h2, h3.own, h3.peer⟩

end Two
end Verif.Msg

import Verif.Msg.CrossSide
/-
The states a conversation goes through before both users have a session in common (for C148).
-/
set_option autoImplicit false
namespace Verif.Msg
open Prog
open Wire (Outer newOuter newPre readFirst)
namespace Two

/-- A user who has opened the messages `o` of the first session. -/
def seenOf (o : List Nat) : View :=
  { view0 (fun _ => none) [] false with opened := fset (fun _ => []) 0 o }

theorem seenOf_nil : (seenOf []).opened = fun _ => [] := by
  show fset (fun _ => []) 0 [] = _
  exact fset_id (fun _ => ([] : List Nat)) 0

/-- A user who has started a session and received nothing in it; `k` is the user's own KeyInit key. -/
structure First (P : Prims) (L : Link) (k : Bytes) (K Us ex : List Bytes) (s : Bytes) (v : View)
    (A : MemStore) : Prop where
  inv : PInv P L K [firstSn P L s] v A
  cur : v.cur = 0
  sn : v.sn = none
  opened : v.opened = fun _ => []
  ex : v.ex = ex
  ki : v.ki = true
  key : L.kPriv ∈ Us
  kU : k ∈ Us
  away : s ≠ k ∧ v.nx ≠ some k
  pool : Pool Us [firstSn P L s] v (seenOf [])

theorem First.more {P : Prims} {L : Link} {k : Bytes} {K Us Us' ex : List Bytes} {s : Bytes} {v : View}
    {A : MemStore} (F : First P L k K Us ex s v A) (h : ∀ x ∈ Us, x ∈ Us') : First P L k K Us' ex s v A :=
  ⟨F.inv, F.cur, F.sn, F.opened, F.ex, F.ki, h _ F.key, h _ F.kU, F.away, F.pool.more h⟩

theorem Dir.more {P : Prims} {L : Link} {uid : UID} {Uh Uh' : List Bytes} {G : List Sn} {v w : View}
    {recs : List Rec} {got : List Nat} (D : Dir P L uid Uh G v w recs got) (h : ∀ x ∈ Uh, x ∈ Uh') :
    Dir P L uid Uh' G v w recs got := D.later (Later.refl _ _) h rfl rfl

/-- Messages of the second user's own session, which the first user (`v`) opens beside the session
the conversation continues in. -/
structure Back (P : Prims) (L : Link) (k : Bytes) (uidB : UID) (Uh Us : List Bytes) (v : View) (s : Bytes)
    (u : View) (rs : List Rec) (o gS : List Nat) : Prop where
  ex : k ∈ v.ex
  kU : k ∈ Us
  sU : s ∈ Us
  ne : s ≠ k
  cur : u.cur = 0
  bes : Beside P (L.back k) (firstSn P (L.back k) s).flip v o
  dir : Dir P (L.back k) uidB Uh [firstSn P (L.back k) s] u (seenOf o) rs gS

theorem Back.more {P : Prims} {L : Link} {k : Bytes} {uidB : UID} {Uh Us Uh' Us' : List Bytes} {v : View}
    {s : Bytes} {u : View} {rs : List Rec} {o gS : List Nat} (H : Back P L k uidB Uh Us v s u rs o gS)
    (h1 : ∀ x ∈ Uh, x ∈ Uh') (h2 : ∀ x ∈ Us, x ∈ Us') : Back P L k uidB Uh' Us' v s u rs o gS :=
  ⟨H.ex, h2 _ H.kU, h2 _ H.sU, H.ne, H.cur, H.bes, H.dir.more h1⟩

theorem Back.move {P : Prims} {L : Link} {k : Bytes} {uidB : UID} {Uh Us : List Bytes} {v v' : View}
    {s : Bytes} {u : View} {rs : List Rec} {o gS : List Nat} (H : Back P L k uidB Uh Us v s u rs o gS)
    (hb : v'.base = v.base) (hx : v'.ex = v.ex) : Back P L k uidB Uh Us v' s u rs o gS :=
  ⟨by rw [hx]; exact H.ex, H.kU, H.sU, H.ne, H.cur, by
    have := H.bes
    unfold Beside at this ⊢
    rw [hb]; exact this, H.dir⟩

/-- A session beside the conversation changed. -/
theorem Both.base {P : Prims} {L : Link} {K : List Bytes} {uidA uidB : UID} {Uh Us : List Bytes}
    {G : List Sn} {v w : View} {A A' B : MemStore} {ra rb : List Rec} {gotB gotA : List Nat}
    (H : Both P L K uidA uidB Uh Us G v w A B ra rb gotB gotA) {b : Str → Option Sess}
    (I : PInv P L K G { v with base := b } A') :
    Both P L K uidA uidB Uh Us G { v with base := b } w A' B ra rb gotB gotA := by
  refine ⟨I, H.IB, ?_, ⟨H.pool.sess, H.pool.nv, H.pool.nw, H.pool.ev, H.pool.ew⟩,
    H.dA.later ⟨fun _ _ h => h, fun _ => Nat.le_refl _, .inl ⟨rfl, fun _ h => h⟩⟩ (fun _ h => h) rfl rfl,
    H.dB.later (Later.refl _ _) (fun _ h => h) rfl rfl⟩
  cases H.rel with
  | even h1 h2 h3 h4 => exact .even h1 h2 h3 h4
  | prepL h1 h2 h3 h4 h5 => exact .prepL h1 h2 h3 h4 h5
  | prepR h1 h2 h3 h4 h5 => exact .prepR h1 h2 h3 h4 h5
  | aheadL h1 h2 h3 h4 => exact .aheadL h1 h2 h3 h4
  | aheadR h1 h2 h3 h4 => exact .aheadR h1 h2 h3 h4

section
variable {P : Prims} (hP : P.Good)
include hP

/-- The first message. -/
theorem First.start {L : Link} {uid : UID} (hL : L.OK P uid) {K : List Bytes} (hK : Keys P L K) {k : Bytes}
    {A : MemStore} {ex : List Bytes} (hst : A.states (L.stateKeyA P) = none)
    (hse : ∀ y ∈ K, ∀ x ∈ K, A.sessions (L.skey P y x) = none)
    (hpub : A.pubs L.bob.identity = some (initDHKey P L.kPriv).public)
    (hpr : ∀ x ∈ K, ∀ ke, A.privs (keyHash P x) = some ke → ke = initDHKey P x)
    (hsk : ∀ x ∈ K, A.skeys (keyHash P x) = none)
    {Uh Us rest : List Bytes} {r : Round} (hr : r.OK P uid ∧ Fits P L r) (hk : L.kPriv ∈ Us) (hkU : k ∈ Us)
    (hexU : ∀ x ∈ ex, x ∈ Us)
    (dr : Draws L K Uh Us (r.rnd.headerPriv :: r.rnd.sessPriv :: r.rnd.nextPriv :: rest)) :
    ∃ A' v m, sendStep P L r A = (some m.wire, A') ∧ m.r = r ∧
      First P L k K (r.rnd.sessPriv :: r.rnd.nextPriv :: Us) ex r.rnd.sessPriv v A' ∧
      v.base = A.sessions ∧
      Dir P L uid (r.rnd.headerPriv :: Uh) [firstSn P L r.rnd.sessPriv] v (seenOf []) [m] [] := by
  obtain ⟨A', v, m, e1, e2, e3, e4, e5, e6, e7, e8, e9⟩ := first_send hP hL hK hst
    (fun y hy _ x hx => hse y hy x hx) hpub hpr (ex := ex)
    (fun x hx _ ke p h => by rw [hsk x hx] at h; cases h) (seenOf []) ⟨rfl, seenOf_nil⟩ hr hk hexU
    (fun x hx => absurd hx (by simp [seenOf, view0])) dr
  refine ⟨A', v, m, e1, e2.1, ⟨e3, e4, e5, e6, e7.2.1, e7.2.2, by simp [hk], by simp [hkU],
    ⟨fun e => (dr.s _ hkU).2.2.2 (by simp [← e]), by rw [e2.2.2.2]; simp⟩, e8⟩, e7.1, e9⟩

/-- Another message before anything was received. -/
theorem First.send {L : Link} {uid : UID} (hL : L.OK P uid) {K : List Bytes} (hK : Keys P L K) {k : Bytes}
    {ex Uh Us rest : List Bytes} {s : Bytes} {v : View} {A : MemStore} {o : List Nat} {ra : List Rec}
    {got : List Nat} {r : Round} (hr : r.OK P uid ∧ Fits P L r) (F : First P L k K Us ex s v A)
    (D : Dir P L uid Uh [firstSn P L s] v (seenOf o) ra got) (hlen : ra.length < 2 ^ 62)
    (dr : Draws L K Uh Us (r.rnd.headerPriv :: r.rnd.sessPriv :: r.rnd.nextPriv :: rest)) :
    ∃ A' v' m, sendStep P L r A = (some m.wire, A') ∧ m.r = r ∧
      First P L k K (r.rnd.sessPriv :: r.rnd.nextPriv :: Us) ex s v' A' ∧ v'.base = v.base ∧
      Dir P L uid (r.rnd.headerPriv :: Uh) [firstSn P L s] v' (seenOf o) (ra ++ [m]) got := by
  have pool : Pool Us [firstSn P L s] v (seenOf o) := ⟨F.pool.sess, F.pool.nv, F.pool.nw, F.pool.ev, F.pool.ew⟩
  obtain ⟨A', m, e1, e2, e3, e4, e5, e6⟩ := send_party hP hL hK hr F.inv pool D hlen dr
  refine ⟨A', _, m, e1, e2.1, ⟨e3, F.cur, F.sn, F.opened, F.ex, F.ki, by simp [F.key], by simp [F.kU],
    ⟨F.away.1, ?_⟩, ?_⟩, rfl, e6⟩
  · show v.drawn r ≠ some k
    intro e
    unfold View.drawn at e
    split at e
    · exact (dr.s _ F.kU).2.2.2 (by rw [← Option.some.inj e]; simp)
    · exact F.away.2 e
  · exact ⟨fun s hs => by
      obtain ⟨g1, g2, g3⟩ := F.pool.sess s hs
      exact ⟨by simp [g1], by simp [g2], g3⟩, e5, fun y hy => (nomatch hy),
      fun y hy => by simp [F.pool.ev y hy], fun y hy => by simp [F.pool.ew y hy]⟩

/-- A message of the second user's own session is opened. -/
theorem Back.open {L : Link} {k : Bytes} {uidB : UID} (hL' : L.flip.OK P uidB) {K : List Bytes}
    (hK : Keys P L K)
    (hparse : ∀ h : Header, h.Clean → (P.marshal h).length = 7152 → P.parse (P.marshal h) = some h)
    (hord : L.alice.identity < L.bob.identity)
    {Uh Us rest : List Bytes} {G : List Sn} {v : View} {A : MemStore} (I : PInv P L K G v A)
    (hpriv : A.privs (keyHash P k) = some (initDHKey P k))
    {s : Bytes} {u : View} {rs : List Rec} {o gS : List Nat} (H : Back P L k uidB Uh Us v s u rs o gS)
    (hlen : rs.length < 2 ^ 62) (dr : Draws L K Uh Us rest) {x : Nat} {m : Rec} (hm : rs[x]? = some m)
    (fresh : Bytes) :
    ∃ A' v', (∃ b, v' = { v with base := b }) ∧ PInv P L K G v' A' ∧
      ((x ∉ gS ∧ openStep P L.flip fresh m.wire A =
          (some (m.r.content, L.bob.identity, sigOf P m.r.sigKey m.r.content), A') ∧
        ∃ o', Back P L k uidB Uh Us v' s u rs o' (x :: gS)) ∨
      ((x ∈ gS ∨ 301 < roundUp m.i (effKeys L.nA).toNat) ∧
        openStep P L.flip fresh m.wire A = (none, A') ∧ Back P L k uidB Uh Us v' s u rs o gS)) := by
  have hmem := List.mem_of_getElem? hm
  have ok := H.dir.ok m hmem
  obtain ⟨hr1, hr2⟩ := H.dir.rok m hmem
  obtain ⟨s0, h, hs, Hd, hw⟩ := ok.hdr
  have hj : m.j = 0 := by have := ok.cur; have := H.cur; omega
  rw [hj] at hs
  obtain rfl : firstSn P (L.back k) s = s0 := Option.some.inj hs
  have hh := dr.h _ ok.head
  have hks := dr.s _ H.kU
  have hss := dr.s _ H.sU
  have hix := H.dir.idx x m hm
  have hxl := (List.getElem?_eq_some_iff.mp hm).1
  have hop := H.dir.opened x m hm
  rw [hj] at hop
  have hop : m.i ∈ o ↔ x ∈ gS := by
    rw [← hop]
    show _ ↔ m.i ∈ fset (fun _ => []) 0 o 0
    rw [fset_same]
  obtain ⟨A', v', ⟨b, rfl⟩, h2, h3⟩ := open_beside hP (M := L.back k) (LinkOK.kp hL' k) (hK.kp k) (I.kp k) hpriv
    H.ex (str_lt_asymm _ _ hord) hks.1 hss.1 hr1 hr2.content (by omega) Hd (hparse h Hd.clean Hd.len) fresh
    hh.1 (by
      have h1 : m.r.rnd.headerPriv ≠ s := fun e => hh.2.2.2.1 (e ▸ H.sU)
      have h2 : m.r.rnd.headerPriv ≠ k := fun e => hh.2.2.2.1 (e ▸ H.kU)
      show [m.r.rnd.headerPriv, L.bPriv, s, L.aPriv, k].Nodup
      simp only [List.nodup_cons, List.mem_cons, List.not_mem_nil, or_false, not_or,
        not_false_eq_true, List.nodup_nil, and_true]
      exact ⟨⟨hh.2.2.1, h1, hh.2.1, h2⟩, ⟨fun e => hss.2.2.1 e.symm, fun e => dr.ab e.symm,
        fun e => hks.2.2.1 e.symm⟩, ⟨hss.2.1, H.ne⟩, fun e => hks.2.1 e.symm⟩) H.bes
  have h2 := h2.kp L.kPriv
  refine ⟨A', _, ⟨b, rfl⟩, h2, ?_⟩
  rw [← hw] at h3
  rcases h3 with ⟨g1, g2, g3⟩ | ⟨g1, g2, g3⟩
  · refine .inl ⟨fun h => g1 (hop.mpr h), g2, m.i :: o, H.ex, H.kU, H.sU, H.ne, H.cur, g3, ?_⟩
    refine H.dir.open hm ?_
    rw [hj]
    show fset (fun _ => []) 0 (m.i :: o) = fset (fset (fun _ => []) 0 o) 0 (m.i :: fset (fun _ => []) 0 o 0)
    rw [fset_same]
    funext z
    unfold fset
    split <;> rfl
  · refine .inr ⟨?_, g2, H.ex, H.kU, H.sU, H.ne, H.cur, g3, H.dir⟩
    rcases g1 with g1 | g1
    · exact .inl (hop.mp g1)
    · exact .inr g1

end
end Two
end Verif.Msg

import Verif.Msg.TwoWayDec
/-
The two parties of a conversation together: which sessions they are in and which messages are
under way (for C145).
-/
set_option autoImplicit false
namespace Verif.Msg
open Prog
open Wire (Outer newOuter newPre readFirst)
namespace Two

/-- A message under way: the session and its number there, and the next keys it names. -/
structure Rec where
  r : Round
  j : Nat
  i : Nat
  nx : Option Bytes
  sn : Option Bytes
  h : Header
  wire : Str

structure RecOK (P : Prims) (L : Link) (Uh : List Bytes) (G : List Sn) (v : View) (m : Rec) : Prop where
  hd : ∃ s, G[m.j]? = some s ∧ Hdr P L s m.i m.nx m.sn m.h ∧ m.wire = wireOf P L m.r m.h s m.i
  cur : m.j ≤ v.cur
  cnt : m.i < v.sent m.j
  next : ∀ x, m.nx = some x → (m.j = v.cur ∧ v.nx = some x) ∨
    (m.j < v.cur ∧ ∃ s' : Sn, G[m.j + 1]? = some s' ∧ s'.a = x)
  seen : ∀ y, m.sn = some y → ∃ s' : Sn, G[m.j + 1]? = some s' ∧ s'.mine = true ∧ s'.b = y ∧
    m.nx = some s'.a
  head : m.r.rnd.headerPriv ∈ Uh

theorem RecOK.hdr {P : Prims} {L : Link} {Uh : List Bytes} {G : List Sn} {v : View} {m : Rec}
    (R : RecOK P L Uh G v m) :
    ∃ s h, G[m.j]? = some s ∧ Hdr P L s m.i m.nx m.sn h ∧ m.wire = wireOf P L m.r h s m.i :=
  let ⟨s, h⟩ := R.hd
  ⟨s, m.h, h⟩

/-- A later point of the conversation, for one party. -/
structure Later (G : List Sn) (v : View) (G' : List Sn) (v' : View) : Prop where
  sub : ∀ (j : Nat) (s : Sn), G[j]? = some s → G'[j]? = some s
  sent : ∀ j, v.sent j ≤ v'.sent j
  cur : (v'.cur = v.cur ∧ ∀ x, v.nx = some x → v'.nx = some x) ∨
    (v'.cur = v.cur + 1 ∧ ∃ s' : Sn, G'[v.cur + 1]? = some s' ∧ v.nx = some s'.a)

theorem RecOK.later {P : Prims} {L : Link} {Uh Uh' : List Bytes} {G G' : List Sn} {v v' : View} {m : Rec}
    (h : RecOK P L Uh G v m) (l : Later G v G' v') (hU : ∀ x ∈ Uh, x ∈ Uh') : RecOK P L Uh' G' v' m := by
  obtain ⟨s, h1, h2, h3⟩ := h.hd
  refine ⟨⟨s, l.sub _ _ h1, h2, h3⟩, ?_, ?_, ?_, ?_, hU _ h.head⟩
  · have := h.cur
    rcases l.cur with e | e <;> omega
  · have := h.cnt; have := l.sent m.j; omega
  · intro x hx
    rcases h.next x hx with ⟨g1, g2⟩ | ⟨g1, s', g2, g3⟩
    · rcases l.cur with ⟨e1, e2⟩ | ⟨e1, s', e2, e3⟩
      · exact .inl ⟨by omega, e2 x g2⟩
      · refine .inr ⟨by omega, s', by rw [g1]; exact e2, ?_⟩
        rw [g2] at e3; exact (Option.some.inj e3).symm
    · refine .inr ⟨?_, s', l.sub _ _ g2, g3⟩
      rcases l.cur with e | e <;> omega
  · intro y hy
    obtain ⟨s', g1, g2⟩ := h.seen y hy
    exact ⟨s', l.sub _ _ g1, g2⟩

/-- The messages one party (`v`) sent to the other (`w`), and which of them were opened. -/
structure Dir (P : Prims) (L : Link) (uid : UID) (Uh : List Bytes) (G : List Sn) (v w : View)
    (recs : List Rec) (got : List Nat) : Prop where
  ok : ∀ m ∈ recs, RecOK P L Uh G v m
  rok : ∀ m ∈ recs, m.r.OK P uid ∧ Fits P L m.r
  num : ∀ (x : Nat) (m : Rec), recs[x]? = some m → m.i = (recs.take x).countP fun m' => m'.j == m.j
  cnts : ∀ j, v.sent j = recs.countP fun m => m.j == j
  diff : ∀ (x x' : Nat) (m m' : Rec), recs[x]? = some m → recs[x']? = some m' → m.j = m'.j → m.i = m'.i →
    x = x'
  opened : ∀ (x : Nat) (m : Rec), recs[x]? = some m → (m.i ∈ w.opened m.j ↔ x ∈ got)
  opn : ∀ j, ∀ i ∈ w.opened j, i < v.sent j
  gotlt : ∀ x ∈ got, x < recs.length

theorem Dir.idx {P : Prims} {L : Link} {uid : UID} {Uh : List Bytes} {G : List Sn} {v w : View}
    {recs : List Rec} {got : List Nat} (D : Dir P L uid Uh G v w recs got) (x : Nat) (m : Rec)
    (h : recs[x]? = some m) : m.i ≤ x := by
  rw [D.num x m h]
  exact Nat.le_trans List.countP_le_length (List.length_take_le _ _)

theorem Dir.sentle {P : Prims} {L : Link} {uid : UID} {Uh : List Bytes} {G : List Sn} {v w : View}
    {recs : List Rec} {got : List Nat} (D : Dir P L uid Uh G v w recs got) (j : Nat) :
    v.sent j ≤ recs.length := by
  rw [D.cnts j]; exact List.countP_le_length

theorem Dir.later {P : Prims} {L : Link} {uid : UID} {Uh Uh' : List Bytes} {G G' : List Sn}
    {v v' w w' : View} {recs : List Rec} {got : List Nat} (D : Dir P L uid Uh G v w recs got)
    (l : Later G v G' v') (hU : ∀ x ∈ Uh, x ∈ Uh') (hs : v'.sent = v.sent) (ho : w'.opened = w.opened) :
    Dir P L uid Uh' G' v' w' recs got :=
  ⟨fun m hm => (D.ok m hm).later l hU, D.rok, D.num, by rw [hs]; exact D.cnts, D.diff,
    by rw [ho]; exact D.opened, by rw [ho, hs]; exact D.opn, D.gotlt⟩

/-- One more message. -/
theorem Dir.send {P : Prims} {L : Link} {uid : UID} {Uh Uh' : List Bytes} {G : List Sn} {v v' w : View}
    {recs : List Rec} {got : List Nat} (D : Dir P L uid Uh G v w recs got) {m : Rec}
    (hv : v'.sent = fset v.sent v.cur (v.sent v.cur + 1)) (hc : v'.cur = v.cur)
    (hn : ∀ x, v.nx = some x → v'.nx = some x)
    (hU : ∀ x ∈ Uh, x ∈ Uh') (hm : RecOK P L Uh' G v' m) (hj : m.j = v.cur) (hi : m.i = v.sent v.cur)
    (hr : m.r.OK P uid ∧ Fits P L m.r) : Dir P L uid Uh' G v' w (recs ++ [m]) got := by
  have hle : ∀ j, v.sent j ≤ v'.sent j := by
    intro j
    rw [hv]
    by_cases e : j = v.cur
    · subst e; simp
    · rw [fset_other _ _ e]; exact Nat.le_refl _
  have l : Later G v G v' := ⟨fun _ _ h => h, hle, .inl ⟨hc, hn⟩⟩
  have hget : ∀ (x : Nat) (m' : Rec), (recs ++ [m])[x]? = some m' →
      recs[x]? = some m' ∨ (x = recs.length ∧ m' = m) := by
    intro x m' h
    by_cases hx : x < recs.length
    · rw [List.getElem?_append_left hx] at h; exact .inl h
    · rw [List.getElem?_append_right (by omega)] at h
      have hlt := (List.getElem?_eq_some_iff.mp h).1
      simp only [List.length_singleton] at hlt
      have : x - recs.length = 0 := by omega
      rw [this] at h
      exact .inr ⟨by omega, (Option.some.inj h).symm⟩
  refine ⟨?_, ?_, ?_, ?_, ?_, ?_, ?_, ?_⟩
  · intro m' h
    rcases List.mem_append.mp h with h | h
    · exact (D.ok m' h).later l hU
    · rw [List.mem_singleton] at h; subst h; exact hm
  · intro m' h
    rcases List.mem_append.mp h with h | h
    · exact D.rok m' h
    · rw [List.mem_singleton] at h; subst h; exact hr
  · intro x m' h
    rcases hget x m' h with h | ⟨rfl, rfl⟩
    · have hx := (List.getElem?_eq_some_iff.mp h).1
      rw [List.take_append_of_le_length (by omega)]
      exact D.num x m' h
    · rw [List.take_left, hi, hj, D.cnts]
  · intro j
    rw [List.countP_append, ← D.cnts j, List.countP_singleton, hj, hv]
    by_cases e : j = v.cur
    · subst e; simp
    · rw [fset_other _ _ e, if_neg (by simpa using fun h => e h.symm)]; omega
  · intro x x' m1 m2 h1 h2 e1 e2
    rcases hget _ _ h1 with k1 | ⟨a1, b1⟩ <;> rcases hget _ _ h2 with k2 | ⟨a2, b2⟩
    · exact D.diff x x' m1 m2 k1 k2 e1 e2
    · have := (D.ok m1 (List.mem_of_getElem? k1)).cnt
      rw [e1, e2, b2, hi, hj] at this; omega
    · have := (D.ok m2 (List.mem_of_getElem? k2)).cnt
      rw [← e1, ← e2, b1, hi, hj] at this; omega
    · omega
  · intro x m' h
    rcases hget _ _ h with h | ⟨rfl, rfl⟩
    · exact D.opened x m' h
    · constructor
      · intro h'
        have := D.opn _ _ h'
        rw [hi, hj] at this; omega
      · intro h'
        have := D.gotlt _ h'; omega
  · intro j i h
    have := D.opn j i h; have := hle j; omega
  · intro x h
    have := D.gotlt x h
    rw [List.length_append]; omega

/-- A message was opened. -/
theorem Dir.open {P : Prims} {L : Link} {uid : UID} {Uh : List Bytes} {G : List Sn} {v w w' : View}
    {recs : List Rec} {got : List Nat} (D : Dir P L uid Uh G v w recs got) {x : Nat} {m : Rec}
    (hm : recs[x]? = some m) (hw : w'.opened = fset w.opened m.j (m.i :: w.opened m.j)) :
    Dir P L uid Uh G v w' recs (x :: got) := by
  refine ⟨D.ok, D.rok, D.num, D.cnts, D.diff, ?_, ?_, ?_⟩
  · intro x' m' h
    rw [hw, List.mem_cons]
    have hop := D.opened x' m' h
    by_cases e : m'.j = m.j
    · rw [e, fset_same, List.mem_cons, ← e, hop]
      constructor
      · rintro (e2 | h2)
        · exact .inl (D.diff _ _ _ _ h hm e e2)
        · exact .inr h2
      · rintro (rfl | h2)
        · rw [hm] at h; cases h; exact .inl rfl
        · exact .inr h2
    · rw [fset_other _ _ e, hop]
      constructor
      · exact .inr
      · rintro (rfl | h2)
        · rw [hm] at h; cases h; exact absurd rfl e
        · exact h2
  · intro j i h
    rw [hw] at h
    by_cases e : j = m.j
    · subst e
      rw [fset_same, List.mem_cons] at h
      rcases h with rfl | h
      · exact (D.ok m (List.mem_of_getElem? hm)).cnt
      · exact D.opn _ _ h
    · rw [fset_other _ _ e] at h; exact D.opn _ _ h
  · intro x' h
    rcases List.mem_cons.mp h with rfl | h
    · exact (List.getElem?_eq_some_iff.mp hm).1
    · exact D.gotlt _ h

/-- How far the two parties are apart; `n` is the number of sessions there are. -/
inductive Rel (n : Nat) (v w : View) : Prop where
  | even : v.cur = w.cur → v.sn = none → w.sn = none → n = v.cur + 1 → Rel n v w
  | prepL : v.cur = w.cur → v.sn ≠ none → w.nx = v.sn → w.sn = none → n = v.cur + 2 → Rel n v w
  | prepR : v.cur = w.cur → w.sn ≠ none → v.nx = w.sn → v.sn = none → n = v.cur + 2 → Rel n v w
  | aheadL : v.cur = w.cur + 1 → w.sn ≠ none → v.sn = none → n = v.cur + 1 → Rel n v w
  | aheadR : w.cur = v.cur + 1 → v.sn ≠ none → w.sn = none → n = w.cur + 1 → Rel n v w

theorem Rel.symm {n : Nat} {v w : View} (h : Rel n v w) : Rel n w v := by
  cases h with
  | even h1 h2 h3 h4 => exact .even h1.symm h3 h2 (by omega)
  | prepL h1 h2 h3 h4 h5 => exact .prepR h1.symm h2 h3 h4 (by omega)
  | prepR h1 h2 h3 h4 h5 => exact .prepL h1.symm h2 h3 h4 (by omega)
  | aheadL h1 h2 h3 h4 => exact .aheadR h1 h2 h3 h4
  | aheadR h1 h2 h3 h4 => exact .aheadL h1 h2 h3 h4

/-- The session keys in use. -/
structure Pool (Us : List Bytes) (G : List Sn) (v w : View) : Prop where
  sess : ∀ s ∈ G, s.a ∈ Us ∧ s.b ∈ Us ∧ s.a ≠ s.b
  nv : ∀ y, v.nx = some y → y ∈ Us
  nw : ∀ y, w.nx = some y → y ∈ Us
  ev : ∀ y ∈ v.ex, y ∈ Us
  ew : ∀ y ∈ w.ex, y ∈ Us

theorem Pool.more {Us Us' : List Bytes} {G : List Sn} {v w : View} (h : Pool Us G v w)
    (hu : ∀ x ∈ Us, x ∈ Us') : Pool Us' G v w :=
  ⟨fun s hs => ⟨hu _ (h.sess s hs).1, hu _ (h.sess s hs).2.1, (h.sess s hs).2.2⟩,
    fun y hy => hu _ (h.nv y hy), fun y hy => hu _ (h.nw y hy), fun y hy => hu _ (h.ev y hy),
    fun y hy => hu _ (h.ew y hy)⟩

theorem Pool.symm {Us : List Bytes} {G : List Sn} {v w : View} (h : Pool Us G v w) :
    Pool Us (G.map Sn.flip) w v := by
  refine ⟨?_, h.nw, h.nv, h.ew, h.ev⟩
  intro s hs
  obtain ⟨s', h1, rfl⟩ := List.mem_map.mp hs
  obtain ⟨g1, g2, g3⟩ := h.sess s' h1
  exact ⟨g2, g1, fun e => g3 e.symm⟩

/-- The keys used for headers (`Uh`), the session keys (`Us`) and the keys drawn later (`rest`). -/
structure Draws (L : Link) (K Uh Us rest : List Bytes) : Prop where
  h : ∀ x ∈ Uh, x ∈ K ∧ x ≠ L.aPriv ∧ x ≠ L.bPriv ∧ x ∉ Us ∧ x ∉ rest
  s : ∀ x ∈ Us, x ∈ K ∧ x ≠ L.aPriv ∧ x ≠ L.bPriv ∧ x ∉ rest
  r : ∀ x ∈ rest, x ∈ K ∧ x ≠ L.aPriv ∧ x ≠ L.bPriv
  ab : L.aPriv ≠ L.bPriv
  nd : rest.Nodup

theorem Draws.symm {L : Link} {K Uh Us rest : List Bytes} (h : Draws L K Uh Us rest) :
    Draws L.flip K Uh Us rest :=
  ⟨fun x hx => ⟨(h.h x hx).1, (h.h x hx).2.2.1, (h.h x hx).2.1, (h.h x hx).2.2.2⟩,
    fun x hx => ⟨(h.s x hx).1, (h.s x hx).2.2.1, (h.s x hx).2.1, (h.s x hx).2.2.2⟩,
    fun x hx => ⟨(h.r x hx).1, (h.r x hx).2.2, (h.r x hx).2.1⟩, fun e => h.ab e.symm, h.nd⟩

theorem Draws.send {L : Link} {K Uh Us rest : List Bytes} {a b c : Bytes}
    (h : Draws L K Uh Us (a :: b :: c :: rest)) : Draws L K (a :: Uh) (b :: c :: Us) rest := by
  have nd := h.nd
  simp only [List.nodup_cons, List.mem_cons, not_or] at nd
  obtain ⟨⟨n1, n2, n3⟩, ⟨n4, n5⟩, n6, n7⟩ := nd
  refine ⟨?_, ?_, fun x hx => h.r x (by simp [hx]), h.ab, n7⟩
  · intro x hx
    rcases List.mem_cons.mp hx with rfl | hx
    · obtain ⟨g1, g2, g3⟩ := h.r x (by simp)
      refine ⟨g1, g2, g3, ?_, n3⟩
      simp only [List.mem_cons, not_or]
      exact ⟨n1, n2, fun e => (h.s x e).2.2.2 (by simp)⟩
    · obtain ⟨g1, g2, g3, g4, g5⟩ := h.h x hx
      simp only [List.mem_cons, not_or] at g5 ⊢
      exact ⟨g1, g2, g3, ⟨g5.2.1, g5.2.2.1, g4⟩, g5.2.2.2⟩
  · intro x hx
    rcases List.mem_cons.mp hx with rfl | hx
    · obtain ⟨g1, g2, g3⟩ := h.r x (by simp)
      exact ⟨g1, g2, g3, n5⟩
    · rcases List.mem_cons.mp hx with rfl | hx
      · obtain ⟨g1, g2, g3⟩ := h.r x (by simp)
        exact ⟨g1, g2, g3, n6⟩
      · obtain ⟨g1, g2, g3, g4⟩ := h.s x hx
        simp only [List.mem_cons, not_or] at g4
        exact ⟨g1, g2, g3, g4.2.2.2⟩

theorem Draws.deliver {L : Link} {K Uh Us rest : List Bytes} {a : Bytes}
    (h : Draws L K Uh Us (a :: rest)) : Draws L K Uh (a :: Us) rest := by
  have nd := h.nd
  simp only [List.nodup_cons] at nd
  refine ⟨?_, ?_, fun x hx => h.r x (by simp [hx]), h.ab, nd.2⟩
  · intro x hx
    obtain ⟨g1, g2, g3, g4, g5⟩ := h.h x hx
    simp only [List.mem_cons, not_or] at g5 ⊢
    exact ⟨g1, g2, g3, ⟨g5.1, g4⟩, g5.2⟩
  · intro x hx
    rcases List.mem_cons.mp hx with rfl | hx
    · obtain ⟨g1, g2, g3⟩ := h.r x (by simp)
      exact ⟨g1, g2, g3, nd.1⟩
    · obtain ⟨g1, g2, g3, g4⟩ := h.s x hx
      simp only [List.mem_cons, not_or] at g4
      exact ⟨g1, g2, g3, g4.2⟩

theorem map_flip_flip (G : List Sn) : (G.map Sn.flip).map Sn.flip = G := by
  rw [List.map_map]
  conv => rhs; rw [← List.map_id G]
  apply List.map_congr_left
  intro s _
  exact Sn.flip_flip s

theorem get_flip {G : List Sn} {j : Nat} {s : Sn} (h : G[j]? = some s) :
    (G.map Sn.flip)[j]? = some s.flip := by rw [List.getElem?_map, h]; rfl

theorem get_flip' {G : List Sn} {j : Nat} {s : Sn} (h : (G.map Sn.flip)[j]? = some s) :
    G[j]? = some s.flip := by
  have := get_flip h
  rw [map_flip_flip] at this
  exact this

/-- A message from `v` reaches `w`: session handling applies, and the parties stay related. -/
theorem recv_joint {P : Prims} (hP : P.Good) {L : Link} {K Uh Us rest : List Bytes} {G : List Sn}
    {v w : View} {A : MemStore} {fresh : Bytes} (IA : PInv P L K G v A) (rel : Rel G.length v w)
    (hseen : ∀ x, w.sn = some x → ∃ s : Sn, (G.map Sn.flip)[w.cur + 1]? = some s ∧ s.mine = true ∧
      w.nx = some s.a ∧ s.b = x)
    (hkn : w.known = if w.sn.isSome then w.cur + 2 else w.cur + 1) (pool : Pool Us G v w)
    (dr : Draws L K Uh Us (fresh :: rest)) {m : Rec} (ok : RecOK P L Uh G v m) :
    m.j < w.known ∧ (∀ x, m.nx = some x → x ∈ K) ∧ (∀ x, m.sn = some x → x ∈ K) ∧
    (∀ x, m.j = w.cur → m.nx = some x → w.nx = none → (G.map Sn.flip).length = w.cur + 1 ∧ fresh ∈ K ∧
      fresh ∉ w.ex ∧ (∀ s ∈ G.map Sn.flip, s.a ≠ fresh) ∧
      [m.r.rnd.headerPriv, L.bPriv, fresh, L.aPriv, x].Nodup) ∧
    (∀ x y, m.j = w.cur → m.nx = some x → w.nx = some y → m.sn = some y → w.sn = none ∧
      (∃ s', (G.map Sn.flip)[w.cur + 1]? = some s' ∧ s'.mine = false ∧ s'.a = y ∧ s'.b = x) ∧
      [m.r.rnd.headerPriv, L.aPriv, x, L.bPriv, y].Nodup) ∧
    ∃ G' w', recvStep P L.flip fresh m.nx m.sn m.j (G.map Sn.flip) w = (G'.map Sn.flip, w') ∧
      PInv P L K G' v A ∧ Rel G'.length v w' ∧ Later (G.map Sn.flip) w (G'.map Sn.flip) w' ∧
      (∀ (j : Nat) (s : Sn), G[j]? = some s → G'[j]? = some s) ∧ w'.sent = w.sent ∧
      w'.opened = w.opened ∧ m.j < w'.known ∧ Pool (fresh :: Us) G' v w' := by
  have hfr := dr.r fresh (by simp)
  have hfs : fresh ∉ Us := fun h => (dr.s _ h).2.2.2 (by simp)
  have hh := dr.h _ ok.head
  have hhf : m.r.rnd.headerPriv ≠ fresh := fun e => hh.2.2.2.2 (by simp [e])
  have hnxU : ∀ x, m.nx = some x → x ∈ Us := by
    intro x hx
    rcases ok.next x hx with ⟨-, g⟩ | ⟨-, s', g, rfl⟩
    · exact pool.nv x g
    · exact (pool.sess s' (List.mem_of_getElem? g)).1
  have hsnU : ∀ x, m.sn = some x → x ∈ Us := by
    intro x hx
    obtain ⟨s', g1, -, rfl, -⟩ := ok.seen x hx
    exact (pool.sess s' (List.mem_of_getElem? g1)).2.1
  have hwn : w.nx = none → w.sn = none := by
    intro h
    cases hs : w.sn with
    | none => rfl
    | some x =>
      obtain ⟨s, -, -, g, -⟩ := hseen x hs
      rw [h] at g; cases g
  have hjk : m.j < w.known := by
    have := ok.cur
    rw [hkn]
    cases rel with
    | even h1 h2 h3 h4 => rw [h3]; simp; omega
    | prepL h1 h2 h3 h4 h5 => rw [h4]; simp; omega
    | prepR h1 h2 h3 h4 h5 => split <;> omega
    | aheadL h1 h2 h3 h4 =>
      rw [if_pos (by rw [Option.isSome_iff_ne_none]; exact h2)]; omega
    | aheadR h1 h2 h3 h4 => split <;> omega
  have hev : ∀ x, m.j = w.cur → m.nx = some x → w.nx = none →
      v.cur = w.cur ∧ v.sn = none ∧ G.length = w.cur + 1 ∧ v.nx = some x := by
    intro x e hx hw
    have hc := ok.cur
    have hws := hwn hw
    cases rel with
    | even h1 h2 h3 h4 =>
      refine ⟨h1, h2, by omega, ?_⟩
      rcases ok.next x hx with ⟨-, g⟩ | ⟨g, -⟩
      · exact g
      · omega
    | prepL h1 h2 h3 h4 h5 => rw [hw] at h3; exact absurd h3.symm h2
    | prepR h1 h2 h3 h4 h5 => exact absurd hws h2
    | aheadL h1 h2 h3 h4 => exact absurd hws h2
    | aheadR h1 h2 h3 h4 => omega
  have hprl : ∀ x y, m.j = w.cur → m.nx = some x → w.nx = some y → m.sn = some y →
      v.cur = w.cur ∧ v.sn ≠ none ∧ w.sn = none ∧ G.length = v.cur + 2 ∧
      ∃ s' : Sn, G[w.cur + 1]? = some s' ∧ s'.mine = true ∧ s'.b = y ∧ s'.a = x := by
    intro x y e hx hw hs
    obtain ⟨s', g1, g2, g3, g4⟩ := ok.seen y hs
    rw [hx] at g4
    rw [e] at g1
    have hlt := (List.getElem?_eq_some_iff.mp g1).1
    have hc := ok.cur
    have hnot : w.sn ≠ none → False := by
      intro h
      cases hs' : w.sn with
      | none => exact h hs'
      | some z =>
        obtain ⟨s2, k1, k2, -, -⟩ := hseen z hs'
        rw [get_flip g1] at k1; cases k1
        simp [Sn.flip, g2] at k2
    have hex : ∃ s' : Sn, G[w.cur + 1]? = some s' ∧ s'.mine = true ∧ s'.b = y ∧ s'.a = x :=
      ⟨s', g1, g2, g3, (Option.some.inj g4).symm⟩
    cases rel with
    | even h1 h2 h3 h4 => omega
    | prepL h1 h2 h3 h4 h5 => exact ⟨h1, h2, h4, h5, hex⟩
    | prepR h1 h2 h3 h4 h5 => exact (hnot h2).elim
    | aheadL h1 h2 h3 h4 => exact (hnot h2).elim
    | aheadR h1 h2 h3 h4 => omega
  have hstay : ∃ G' w', (G.map Sn.flip, w) = (G'.map Sn.flip, w') ∧
      PInv P L K G' v A ∧ Rel G'.length v w' ∧ Later (G.map Sn.flip) w (G'.map Sn.flip) w' ∧
      (∀ (j : Nat) (s : Sn), G[j]? = some s → G'[j]? = some s) ∧ w'.sent = w.sent ∧
      w'.opened = w.opened ∧ m.j < w'.known ∧ Pool (fresh :: Us) G' v w' :=
    ⟨G, w, rfl, IA, rel, ⟨fun _ _ h => h, fun _ => Nat.le_refl _, .inl ⟨rfl, fun _ h => h⟩⟩,
      fun _ _ h => h, rfl, rfl, hjk, pool.more (fun x hx => by simp [hx])⟩
  refine ⟨hjk, fun x hx => (dr.s x (hnxU x hx)).1, fun x hx => (dr.s x (hsnU x hx)).1, ?_, ?_, ?_⟩
  · intro x e hx hw
    obtain ⟨-, -, g3, -⟩ := hev x e hx hw
    have hxs := dr.s x (hnxU x hx)
    refine ⟨by rw [List.length_map]; exact g3, hfr.1, fun h => hfs (pool.ew _ h), ?_, ?_⟩
    · intro s hs
      obtain ⟨s', h1, rfl⟩ := List.mem_map.mp hs
      intro e
      exact hfs (e ▸ (pool.sess s' h1).2.1)
    · have h1 : m.r.rnd.headerPriv ≠ x := fun e => hh.2.2.2.1 (e ▸ hnxU x hx)
      have h2 : fresh ≠ x := fun e => hfs (e ▸ hnxU x hx)
      simp only [List.nodup_cons, List.mem_cons, List.not_mem_nil, or_false, not_or,
        not_false_eq_true, List.nodup_nil, and_true]
      exact ⟨⟨hh.2.2.1, hhf, hh.2.1, h1⟩, ⟨fun e => hfr.2.2 e.symm, fun e => dr.ab e.symm,
        fun e => hxs.2.2.1 e.symm⟩, ⟨hfr.2.1, h2⟩, fun e => hxs.2.1 e.symm⟩
  · intro x y e hx hw hs
    obtain ⟨-, -, g3, -, s', g5, g6, g7, g8⟩ := hprl x y e hx hw hs
    refine ⟨g3, ⟨s'.flip, get_flip g5, by simp [Sn.flip, g6], g7, g8⟩, ?_⟩
    have hxs := dr.s x (hnxU x hx)
    have hys := dr.s y (hsnU y hs)
    have h1 : m.r.rnd.headerPriv ≠ x := fun e => hh.2.2.2.1 (e ▸ hnxU x hx)
    have h2 : m.r.rnd.headerPriv ≠ y := fun e => hh.2.2.2.1 (e ▸ hsnU y hs)
    have h3 : x ≠ y := by
      rw [← g7, ← g8]; exact (pool.sess s' (List.mem_of_getElem? g5)).2.2
    simp only [List.nodup_cons, List.mem_cons, List.not_mem_nil, or_false, not_or,
      not_false_eq_true, List.nodup_nil, and_true]
    exact ⟨⟨hh.2.1, h1, hh.2.2.1, h2⟩, ⟨fun e => hxs.2.1 e.symm, dr.ab, fun e => hys.2.1 e.symm⟩,
      ⟨hxs.2.2.1, h3⟩, fun e => hys.2.2.1 e.symm⟩
  · unfold recvStep
    by_cases e : m.j = w.cur
    · rw [if_pos e]
      cases hx : m.nx with
      | none => exact hstay
      | some x =>
        cases hw : w.nx with
        | none =>
          simp only
          obtain ⟨g1, g2, g3, g4⟩ := hev x e hx hw
          obtain ⟨ss, s, hs, -, -⟩ := IA.state
          have hsf : (G.map Sn.flip)[w.cur]? = some s.flip := by rw [← g1]; exact get_flip hs
          rw [hsf]
          simp only [Option.map_some, Option.getD_some]
          let s' : Sn := ⟨x, fresh, nextRoot P L s.root ⟨x, fresh, [], false⟩, false⟩
          have hs' : (⟨fresh, x, nextRoot P L.flip s.flip.root ⟨fresh, x, [], true⟩, true⟩ : Sn) = s'.flip := by
            show _ = (⟨fresh, x, nextRoot P L s.root ⟨x, fresh, [], false⟩, true⟩ : Sn)
            rw [← nextRoot_flip]; rfl
          have hap : G.map Sn.flip ++ [s'.flip] = (G ++ [s']).map Sn.flip := by
            rw [List.map_append]; rfl
          have hroots : s'.root = nextRoot P L s.root s' := rfl
          have hrl : s'.root.length = 32 := by
            show (nextRoot P L s.root ⟨x, fresh, [], false⟩).length = 32
            unfold nextRoot
            split <;> exact deriveRootKey_len P hP _ _ _ _
          have hws := hwn hw
          have hsub : ∀ (j : Nat) (s : Sn), G[j]? = some s → (G ++ [s'])[j]? = some s := by
            intro j s h
            rw [List.getElem?_append_left (List.getElem?_eq_some_iff.mp h).1]; exact h
          have hxU := hnxU x hx
          refine ⟨G ++ [s'], _, Prod.ext (by rw [hs', hap]) rfl, IA.grow (by omega) hs g4 hfr.1 hroots hrl,
            ?_, ?_, hsub, rfl, rfl, ?_, ?_⟩
          · refine .prepR ?_ ?_ ?_ g2 ?_
            · exact g1
            · simp
            · simp only; exact g4
            · rw [List.length_append, List.length_singleton]; omega
          · refine ⟨?_, fun _ => Nat.le_refl _, .inl ⟨rfl, fun y hy => by rw [hw] at hy; cases hy⟩⟩
            intro j s h
            have := get_flip (hsub _ _ (get_flip' h))
            rwa [Sn.flip_flip] at this
          · show m.j < w.known + 1; omega
          · have pm := pool.more (Us' := fresh :: Us) (fun x hx => by simp [hx])
            refine ⟨?_, pm.nv, ?_, pm.ev, pm.ew⟩
            · intro s hs
              rcases List.mem_append.mp hs with hs | hs
              · exact pm.sess s hs
              · rw [List.mem_singleton] at hs; subst hs
                exact ⟨by simp [s', hxU], by simp [s'], fun e => hfs (by
                  have e : x = fresh := e
                  rw [← e]; exact hxU)⟩
            · intro y hy
              simp only [Option.some.injEq] at hy
              simp [← hy]
        | some y =>
          simp only
          by_cases hs : m.sn = some y
          · rw [if_pos hs]
            obtain ⟨g1, g2, g3, g4, s', g5, g6, g7, g8⟩ := hprl x y e hx hw hs
            refine ⟨G, _, rfl, IA, .aheadR ?_ g2 rfl ?_, ⟨fun _ _ h => h, fun _ => Nat.le_refl _,
              .inr ⟨rfl, s'.flip, get_flip g5, by rw [hw]; exact congrArg some g7.symm⟩⟩, fun _ _ h => h,
              rfl, rfl, ?_, ?_⟩
            · show w.cur + 1 = v.cur + 1; omega
            · show G.length = w.cur + 1 + 1; omega
            · show m.j < w.known + 1; omega
            · have pm := pool.more (Us' := fresh :: Us) (fun x hx => by simp [hx])
              exact ⟨pm.sess, pm.nv, fun y hy => (nomatch hy), pm.ev, pm.ew⟩
          · rw [if_neg hs]
            exact hstay
    · rw [if_neg e]
      by_cases e1 : m.j = w.cur + 1
      · rw [if_pos e1]
        have hc := ok.cur
        obtain ⟨h1, h2, h3, h4⟩ : v.cur = w.cur + 1 ∧ w.sn ≠ none ∧ v.sn = none ∧ G.length = v.cur + 1 := by
          cases rel with
          | even h1 h2 h3 h4 => omega
          | prepL h1 h2 h3 h4 h5 => omega
          | prepR h1 h2 h3 h4 h5 => omega
          | aheadL h1 h2 h3 h4 => exact ⟨h1, h2, h3, h4⟩
          | aheadR h1 h2 h3 h4 => omega
        obtain ⟨z, hz⟩ := Option.ne_none_iff_exists'.mp h2
        obtain ⟨s2, k1, k2, k3, k4⟩ := hseen z hz
        refine ⟨G, _, rfl, IA, .even ?_ h3 rfl h4, ⟨fun _ _ h => h, fun _ => Nat.le_refl _,
          .inr ⟨rfl, s2, k1, k3⟩⟩, fun _ _ h => h, rfl, rfl, hjk, ?_⟩
        · exact h1
        · have pm := pool.more (Us' := fresh :: Us) (fun x hx => by simp [hx])
          exact ⟨pm.sess, pm.nv, fun y hy => (nomatch hy), pm.ev, pm.ew⟩
      · rw [if_neg e1]
        exact hstay

end Two
end Verif.Msg

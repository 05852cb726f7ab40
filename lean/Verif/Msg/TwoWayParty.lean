import Verif.Msg.TwoWay
/-
The store of one party of a two-way conversation (for C145).
-/
set_option autoImplicit false
namespace Verif.Msg
open Prog
open Wire (Outer newOuter newPre readFirst)
namespace Two

/-- The root key of a session that follows one with root key `prev`. -/
def nextRoot (P : Prims) (L : Link) (prev : Bytes) (s : Sn) : Bytes :=
  if s.mine then deriveRootKey P (P.dh L.aPriv (P.dhPub s.b)) (P.dh s.a (P.dhPub s.b))
    (P.dh s.a (P.dhPub L.bPriv)) (some (P.sha512 prev))
  else deriveRootKey P (P.dh L.bPriv (P.dhPub s.a)) (P.dh s.b (P.dhPub s.a))
    (P.dh s.b (P.dhPub L.aPriv)) (some (P.sha512 prev))

theorem nextRoot_flip (P : Prims) (L : Link) (prev : Bytes) (s : Sn) :
    nextRoot P L.flip prev s.flip = nextRoot P L prev s := by
  cases h : s.mine <;> simp [nextRoot, Link.flip, Sn.flip, h]

/-- The session state a party stores. -/
structure TState (P : Prims) (s : Sn) (v : View) (ss : State) : Prop where
  own : ss.senderSessionPub = initDHKey P s.a
  peer : ss.recipientTemp = (initDHKey P s.b).public
  next : ss.nextSenderSessionPub = v.nx.map (initDHKey P)
  seen : ss.nextRecipientSessionPubSeen = v.sn.map fun x => (initDHKey P x).public
  count : ss.senderMessageCount = UInt64.ofNat (v.sent v.cur)
  ki : ss.keyInitSession = v.ki

/-- The store of the first user of `L`, without what is said of deleted private keys. -/
structure PCore (P : Prims) (L : Link) (K : List Bytes) (G : List Sn) (v : View) (st : MemStore) :
    Prop where
  cur : v.known = if v.sn.isSome then v.cur + 2 else v.cur + 1
  len : v.known ≤ G.length
  state : ∃ ss s, G[v.cur]? = some s ∧ st.states (L.stateKeyA P) = some ss ∧ TState P s v ss
  sess : ∀ (j : Nat) (s : Sn), j < v.known → G[j]? = some s → ∃ m t,
    SInv P (L.skey P s.a s.b) s.root (P.dhPub s.a) (P.dhPub s.b) (L.fix P) (v.sent j) (v.opened j) m st t
  rlen : ∀ s ∈ G, s.root.length = 32
  only : ∀ key, (∀ (j : Nat) (s : Sn), j < v.known → G[j]? = some s → key ≠ L.skey P s.a s.b) →
    st.sessions key = v.base key
  own : ∀ (j : Nat) (s : Sn), j < v.known → G[j]? = some s → Own P st (keyHash P s.a) (P.dhPub s.a)
  nxt : ∀ y, v.nx = some y → y ∈ K ∧
    st.skeys (keyHash P y) = some ((initDHKey P y).public, P.b64 y)
  privs : ∀ x ∈ K, ∀ ke, st.privs (keyHash P x) = some ke → ke = initDHKey P x
  mem : ∀ s ∈ G, s.a ∈ K ∧ s.b ∈ K
  dist : ∀ (j j' : Nat) (s s' : Sn), G[j]? = some s → G[j']? = some s' → s.a = s'.a → j = j'
  nxd : ∀ y, v.nx = some y → ∀ (j : Nat) (s : Sn), G[j]? = some s → s.a = y → j = v.cur + 1
  seen : ∀ x, v.sn = some x → ∃ s, G[v.cur + 1]? = some s ∧ s.mine = true ∧ v.nx = some s.a ∧ s.b = x
  roots : ∀ (j : Nat) (s s' : Sn), G[j]? = some s → G[j + 1]? = some s' →
    s'.root = nextRoot P L s.root s'
  far : ∀ j, v.cur < j → v.sent j = 0
  farO : ∀ j, v.known ≤ j → v.opened j = []
  nxe : ∀ y, v.nx = some y → y ∉ v.ex
  exd : ∀ s ∈ G, s.a ∉ v.ex
  newX : ∀ y ∈ K, y ∉ v.ex → ∀ x ∈ K, v.base (L.skey P y x) = none

section
variable {P : Prims} (hP : P.Good)
include hP

omit hP in
theorem PCore.curlt {L : Link} {K : List Bytes} {G : List Sn} {v : View} {st : MemStore}
    (I : PCore P L K G v st) : v.cur < v.known := by
  have := I.cur; split at this <;> omega

/-- A session key with its private part is found. -/
theorem own_of_skey {K : List Bytes} {st : MemStore} {y : Bytes} (hy : y ∈ K) (hl : y.length = 32)
    (hpr : ∀ x ∈ K, ∀ ke, st.privs (keyHash P x) = some ke → ke = initDHKey P x) {p : Str}
    (hs : st.skeys (keyHash P y) = some ((initDHKey P y).public, p)) (hp : p = [] ∨ p = P.b64 y) :
    Own P st (keyHash P y) (P.dhPub y) := by
  cases h : st.privs (keyHash P y) with
  | some ke =>
    refine .inl ⟨ke, h, ?_⟩
    rw [hpr y hy ke h]; exact initDHKey_pub32 P hP y
  | none =>
    refine .inr ⟨h, _, _, hs, initDHKey_public_pub32 P hP y, rfl, ?_⟩
    rcases hp with rfl | rfl
    · exact .inl rfl
    · exact .inr ⟨y, hP.unb64_b64 y, hl⟩

omit hP in
theorem Own.other {st st' : MemStore} {hash : Str} {rp : Bytes} (h : Own P st hash rp)
    (h1 : st'.privs = st.privs) (h2 : st'.skeys hash = st.skeys hash) : Own P st' hash rp := by
  unfold Own at h ⊢
  rw [h1, h2]; exact h

omit hP in
theorem delPriv_skeys (st : MemStore) (h h' : Str) : (st.delPrivSessionKey h).skeys h' =
    if h' = h then (st.skeys h).map (fun x => (x.1, [])) else st.skeys h' := by
  unfold MemStore.delPrivSessionKey
  split
  · rename_i e
    split
    · rename_i e'; rw [e', e]; rfl
    · rfl
  · rename_i ke p e
    simp only [upd]
    split
    · rw [e]; rfl
    · rfl

omit hP in
theorem delPriv_privs (st : MemStore) (h : Str) : (st.delPrivSessionKey h).privs = st.privs ∧
    (st.delPrivSessionKey h).sessions = st.sessions ∧ (st.delPrivSessionKey h).states = st.states := by
  unfold MemStore.delPrivSessionKey; split <;> exact ⟨rfl, rfl, rfl⟩

omit hP in
/-- Forgetting the private part of a session key that is not the next one. -/
theorem PCore.del {L : Link} {K : List Bytes} {G : List Sn} {v : View} {st : MemStore}
    (I : PCore P L K G v st) (h : Str) (hn : ∀ y, v.nx = some y → keyHash P y ≠ h) :
    PCore P L K G v (st.delPrivSessionKey h) := by
  obtain ⟨e1, e2, e3⟩ := delPriv_privs st h
  refine ⟨I.cur, I.len, by rw [e3]; exact I.state, ?_, I.rlen, by rw [e2]; exact I.only, ?_, ?_,
    by rw [e1]; exact I.privs, I.mem, I.dist, I.nxd, I.seen, I.roots, I.far, I.farO,
    I.nxe, I.exd, I.newX⟩
  · intro j s h1 h2
    obtain ⟨m, t, J⟩ := I.sess j s h1 h2
    exact ⟨m, t, J.moved (by rw [e2])⟩
  · intro j s h1 h2
    rcases I.own j s h1 h2 with ⟨ke, h3, h4⟩ | ⟨h3, ke, p, h4, h5, h6, h7⟩
    · exact .inl ⟨ke, by rw [e1]; exact h3, h4⟩
    · refine .inr ⟨by rw [e1]; exact h3, ?_⟩
      by_cases e : keyHash P s.a = h
      · exact ⟨ke, [], by rw [delPriv_skeys, if_pos e, ← e, h4]; rfl, h5, h6, .inl rfl⟩
      · exact ⟨ke, p, by rw [delPriv_skeys, if_neg e]; exact h4, h5, h6, h7⟩
  · intro y hy
    refine ⟨(I.nxt y hy).1, ?_⟩
    rw [delPriv_skeys, if_neg (hn y hy)]
    exact (I.nxt y hy).2

omit hP in
/-- Sessions have different names. -/
theorem PCore.skey_ne {L : Link} {K : List Bytes} (hK : Keys P L K) {G : List Sn} {v : View}
    {st : MemStore} (I : PCore P L K G v st) {j j' : Nat} {s s' : Sn} (h : G[j]? = some s)
    (h' : G[j']? = some s') (hne : j ≠ j') : L.skey P s.a s.b ≠ L.skey P s'.a s'.b := by
  intro e
  have m := I.mem s (List.mem_of_getElem? h)
  have m' := I.mem s' (List.mem_of_getElem? h')
  exact hne (I.dist j j' s s' h h' (hK.skey _ m.1 _ m.2 _ m'.1 _ m'.2 e).1)

omit hP in
/-- A change of one session: its counters may change. -/
theorem PCore.update {L : Link} {K : List Bytes} (hK : Keys P L K) {G : List Sn} {v : View}
    {st st' : MemStore} (I : PCore P L K G v st) {j : Nat} {s : Sn} (hj : j < v.known)
    (hs : G[j]? = some s) {o : List Nat} (F : Frame (L.skey P s.a s.b) st st')
    (J : ∃ m t, SInv P (L.skey P s.a s.b) s.root (P.dhPub s.a) (P.dhPub s.b) (L.fix P) (v.sent j) o
      m st' t) :
    PCore P L K G { v with opened := fset v.opened j o } st' := by
  refine ⟨I.cur, I.len, ?_, ?_, I.rlen, ?_, ?_, ?_, by rw [F.privs]; exact I.privs, I.mem, I.dist, I.nxd,
    I.seen, I.roots, I.far, ?_, I.nxe, I.exd, I.newX⟩
  · obtain ⟨ss, s0, h1, h2, h3⟩ := I.state
    exact ⟨ss, s0, h1, by rw [F.states]; exact h2, ⟨h3.own, h3.peer, h3.next, h3.seen, h3.count, h3.ki⟩⟩
  · intro j' s' h1 h2
    by_cases e : j' = j
    · subst e
      rw [hs] at h2; cases h2
      simp only [fset_same]
      exact J
    · simp only [fset_other _ _ e]
      obtain ⟨m, t, J'⟩ := I.sess j' s' h1 h2
      exact ⟨m, t, J'.moved (F.sess _ (I.skey_ne hK h2 hs e))⟩
  · intro key h
    rw [F.sess key (h j s hj hs)]
    exact I.only key h
  · intro j' s' h1 h2
    exact (I.own j' s' h1 h2).other F.privs (by rw [F.skeys])
  · intro y hy
    rw [F.skeys]; exact I.nxt y hy
  · intro j' h1
    have : j' ≠ j := by have h1' : v.known ≤ j' := h1; omega
    simp only [fset_other _ _ this]
    exact I.farO j' h1

omit hP in
/-- One more message sent in the current session. -/
theorem PCore.sentOne {L : Link} {K : List Bytes} (hK : Keys P L K) {G : List Sn} {v : View}
    {st st' : MemStore} (I : PCore P L K G v st) {s : Sn}
    (hs : G[v.cur]? = some s) (F : Frame (L.skey P s.a s.b) st st') {ss : State}
    (hss : st.states (L.stateKeyA P) = some ss)
    (J : ∃ m t, SInv P (L.skey P s.a s.b) s.root (P.dhPub s.a) (P.dhPub s.b) (L.fix P)
      (v.sent v.cur + 1) (v.opened v.cur) m st' t) :
    PCore P L K G { v with sent := fset v.sent v.cur (v.sent v.cur + 1) }
      (st'.setState (L.stateKeyA P) { ss with senderMessageCount := ss.senderMessageCount + 1 }) := by
  refine ⟨I.cur, I.len, ?_, ?_, I.rlen, ?_, ?_, ?_, ?_, I.mem, I.dist, I.nxd,
    I.seen, I.roots, ?_, I.farO, I.nxe, I.exd, I.newX⟩
  · obtain ⟨ss', s0, h1, h2, h3⟩ := I.state
    rw [hss] at h2; cases h2
    refine ⟨_, s0, h1, upd_same _ _ _, ⟨h3.own, h3.peer, h3.next, h3.seen, ?_, h3.ki⟩⟩
    simp only [fset_same, h3.count]
    simp
  · intro j' s' h1 h2
    by_cases e : j' = v.cur
    · subst e
      rw [hs] at h2; cases h2
      simp only [fset_same]
      obtain ⟨m, t, J'⟩ := J
      exact ⟨m, t, J'.moved rfl⟩
    · simp only [fset_other _ _ e]
      obtain ⟨m, t, J'⟩ := I.sess j' s' h1 h2
      exact ⟨m, t, J'.moved (F.sess _ (I.skey_ne hK h2 hs e))⟩
  · intro key h
    show st'.sessions key = _
    rw [F.sess key (h v.cur s I.curlt hs)]
    exact I.only key h
  · intro j' s' h1 h2
    exact (I.own j' s' h1 h2).other F.privs (by show st'.skeys _ = _; rw [F.skeys])
  · intro y hy
    show _ ∧ st'.skeys _ = _
    rw [F.skeys]; exact I.nxt y hy
  · show ∀ x ∈ K, ∀ ke, st'.privs (keyHash P x) = some ke → ke = initDHKey P x
    rw [F.privs]; exact I.privs
  · intro j hj
    have : j ≠ v.cur := by have h1' : v.cur < j := hj; omega
    simp only [fset_other _ _ this]
    exact I.far j hj

/-- A next session key is drawn. -/
theorem PCore.draw {L : Link} {K : List Bytes} (hK : Keys P L K) {G : List Sn} {v : View}
    {st : MemStore} (I : PCore P L K G v st) (hnx : v.nx = none) {y : Bytes} (hy : y ∈ K)
    (hex : y ∉ v.ex) (hf : ∀ s ∈ G, s.a ≠ y) {ss : State} (hss : st.states (L.stateKeyA P) = some ss) :
    PCore P L K G { v with nx := some y }
      { st with
        skeys := upd st.skeys (keyHash P y) (some ((initDHKey P y).public, P.b64 y))
        states := upd st.states (L.stateKeyA P)
          (some { ss with nextSenderSessionPub := some (initDHKey P y) }) } := by
  have hsn : v.sn = none := by
    cases h : v.sn with
    | none => rfl
    | some x =>
      obtain ⟨s, -, -, h3, -⟩ := I.seen x h
      rw [hnx] at h3; cases h3
  refine ⟨I.cur, I.len, ?_, ?_, I.rlen, I.only, ?_, ?_, I.privs, I.mem, I.dist, ?_, ?_, I.roots, I.far,
    I.farO, fun y' hy' => (Option.some.inj hy') ▸ hex, I.exd, I.newX⟩
  · obtain ⟨ss', s0, h1, h2, h3⟩ := I.state
    rw [hss] at h2; cases h2
    exact ⟨_, s0, h1, upd_same _ _ _, ⟨h3.own, h3.peer, rfl, h3.seen, h3.count, h3.ki⟩⟩
  · intro j s h1 h2
    obtain ⟨m, t, J⟩ := I.sess j s h1 h2
    exact ⟨m, t, J.moved rfl⟩
  · intro j s h1 h2
    refine (I.own j s h1 h2).other rfl (upd_other _ _ fun e => ?_)
    have hm := List.mem_of_getElem? h2
    exact hf s hm (hK.inj _ (I.mem s hm).1 _ hy e)
  · intro y' hy'
    obtain rfl : y = y' := Option.some.inj hy'
    exact ⟨hy, upd_same _ _ _⟩
  · intro y' hy' j s h1 h2
    obtain rfl : y = y' := Option.some.inj hy'
    exact absurd h2 (hf s (List.mem_of_getElem? h1))
  · intro x hx
    rw [show v.sn = none from hsn] at hx; cases hx

/-- A session is prepared: the next own key `y` is drawn, the peer's `x` was seen. -/
theorem PCore.prepare {L : Link} {uid : UID} (hL : L.OK P uid) {K : List Bytes} (hK : Keys P L K)
    {G : List Sn} {v : View}
    {st : MemStore} (I : PCore P L K G v st) (hnx : v.nx = none) (hlen : G.length = v.cur + 1)
    {x y : Bytes} (hx : x ∈ K) (hy : y ∈ K) (hex : y ∉ v.ex) (hf : ∀ s ∈ G, s.a ≠ y) {s : Sn}
    (hs : G[v.cur]? = some s) {ss : State} (hss : st.states (L.stateKeyA P) = some ss) {t : Sess}
    (ht : FullSess P t (nextRoot P L s.root ⟨y, x, [], true⟩) (P.dhPub x) (P.dhPub y) (L.fix P)
      (effKeys L.nA).toNat)
    {s2 : State} (hs2 : TState P s { v with known := v.known + 1, nx := some y, sn := some x } s2) :
    PCore P L K (G ++ [⟨y, x, nextRoot P L s.root ⟨y, x, [], true⟩, true⟩])
      { v with known := v.known + 1, nx := some y, sn := some x }
      { st with
        skeys := upd st.skeys (keyHash P y) (some ((initDHKey P y).public, P.b64 y))
        states := upd st.states (L.stateKeyA P) (some s2)
        sessions := upd st.sessions (L.skey P y x) (some t) } := by
  have hsn : v.sn = none := by
    cases h : v.sn with
    | none => rfl
    | some x =>
      obtain ⟨s, -, -, h3, -⟩ := I.seen x h
      rw [hnx] at h3; cases h3
  have hk : v.known = v.cur + 1 := by have := I.cur; rw [hsn] at this; exact this
  have hget : ∀ (j : Nat) (s' : Sn),
      (G ++ [⟨y, x, nextRoot P L s.root ⟨y, x, [], true⟩, true⟩])[j]? = some s' →
      (j < v.cur + 1 ∧ G[j]? = some s') ∨
        (j = v.cur + 1 ∧ s' = ⟨y, x, nextRoot P L s.root ⟨y, x, [], true⟩, true⟩) := by
    intro j s' h
    by_cases hj : j < G.length
    · rw [List.getElem?_append_left hj] at h
      exact .inl ⟨by omega, h⟩
    · rw [List.getElem?_append_right (by omega)] at h
      have hlt := (List.getElem?_eq_some_iff.mp h).1
      have hj' : j = v.cur + 1 := by simp only [List.length_cons, List.length_nil] at hlt; omega
      refine .inr ⟨hj', ?_⟩
      rw [show j - G.length = 0 by omega] at h
      exact (Option.some.inj h).symm
  have hnk : ∀ (j : Nat) (s' : Sn), G[j]? = some s' → L.skey P s'.a s'.b ≠ L.skey P y x := by
    intro j s' h e
    have hm := List.mem_of_getElem? h
    exact hf s' hm (hK.skey _ (I.mem s' hm).1 _ (I.mem s' hm).2 _ hy _ hx e).1
  refine ⟨?_, ?_, ?_, ?_, ?_, ?_, ?_, ?_, I.privs, ?_, ?_, ?_, ?_, ?_, I.far, ?_,
    fun y' hy' => (Option.some.inj hy') ▸ hex, ?_, I.newX⟩
  · simp only [Option.isSome_some, if_true]; omega
  · simp only [List.length_append, List.length_cons, List.length_nil]; omega
  · exact ⟨s2, s, by simp only; rw [List.getElem?_append_left (by omega)]; exact hs, upd_same _ _ _,
      hs2⟩
  · intro j s' h1 h2
    rcases hget j s' h2 with ⟨hj, h⟩ | ⟨hj, rfl⟩
    · obtain ⟨m, t', J⟩ := I.sess j s' (by omega) h
      exact ⟨m, t', J.moved (upd_other _ _ (hnk j s' h))⟩
    · refine ⟨(effKeys L.nA).toNat, t, ?_⟩
      rw [show v.sent j = 0 from I.far j (by omega), show v.opened j = [] from I.farO j (by omega)]
      exact sinv_new (effKeys_ne _) (effKeys_lt hL.nA) (upd_same _ _ _) ht
  · intro s' h
    rcases List.mem_append.mp h with h | h
    · exact I.rlen s' h
    · rw [List.mem_singleton] at h; subst h
      simp only [nextRoot, if_true]
      exact deriveRootKey_len P hP _ _ _ _
  · intro key h
    have e : key ≠ L.skey P y x := h (v.cur + 1) ⟨y, x, nextRoot P L s.root ⟨y, x, [], true⟩, true⟩
      (by simp only; omega) (by rw [List.getElem?_append_right (by omega), hlen, Nat.sub_self]; rfl)
    show upd st.sessions (L.skey P y x) (some t) key = _
    rw [upd_other _ _ e]
    exact I.only key fun j s' h1 h2 => h j s' (by simp only; omega)
      (by rw [List.getElem?_append_left (by omega)]; exact h2)
  · intro j s' h1 h2
    rcases hget j s' h2 with ⟨hj, h⟩ | ⟨hj, rfl⟩
    · refine (I.own j s' (by omega) h).other rfl (upd_other _ _ fun e => ?_)
      have hm := List.mem_of_getElem? h
      exact hf s' hm (hK.inj _ (I.mem s' hm).1 _ hy e)
    · exact own_of_skey hP hy (hK.len y hy) I.privs (upd_same _ _ _) (.inr rfl)
  · intro y' hy'
    obtain rfl : y = y' := Option.some.inj hy'
    exact ⟨hy, upd_same _ _ _⟩
  · intro s' h
    rcases List.mem_append.mp h with h | h
    · exact I.mem s' h
    · rw [List.mem_singleton] at h; subst h
      exact ⟨hy, hx⟩
  · intro j j' s1 s2 h1 h2 e
    rcases hget j s1 h1 with ⟨hj, h⟩ | ⟨hj, rfl⟩
    · rcases hget j' s2 h2 with ⟨hj', h'⟩ | ⟨hj', rfl⟩
      · exact I.dist j j' s1 s2 h h' e
      · exact absurd e (hf s1 (List.mem_of_getElem? h))
    · rcases hget j' s2 h2 with ⟨hj', h'⟩ | ⟨hj', rfl⟩
      · exact absurd e.symm (hf s2 (List.mem_of_getElem? h'))
      · omega
  · intro y' hy' j s1 h1 e
    obtain rfl : y = y' := Option.some.inj hy'
    rcases hget j s1 h1 with ⟨hj, h⟩ | ⟨hj, rfl⟩
    · exact absurd e (hf s1 (List.mem_of_getElem? h))
    · exact hj
  · intro x' hx'
    obtain rfl : x = x' := Option.some.inj hx'
    exact ⟨_, by simp only; rw [List.getElem?_append_right (by omega), hlen, Nat.sub_self]; rfl,
      rfl, rfl, rfl⟩
  · intro j s1 s2 h1 h2
    rcases hget (j + 1) s2 h2 with ⟨hj, h⟩ | ⟨hj, rfl⟩
    · rcases hget j s1 h1 with ⟨hj', h'⟩ | ⟨hj', rfl⟩
      · exact I.roots j s1 s2 h' h
      · omega
    · rcases hget j s1 h1 with ⟨hj', h'⟩ | ⟨hj', rfl⟩
      · obtain rfl : j = v.cur := by omega
        rw [hs] at h'; cases h'
        rfl
      · omega
  · intro j hj
    exact I.farO j (by have : v.known + 1 ≤ j := hj; omega)
  · intro s' h
    rcases List.mem_append.mp h with h | h
    · exact I.exd s' h
    · rw [List.mem_singleton] at h; subst h; exact hex

/-- The party switches to the session the peer prepared. -/
theorem PCore.switchNew {L : Link} {uid : UID} (hL : L.OK P uid) {K : List Bytes} (hK : Keys P L K)
    {G : List Sn} {v : View} {st : MemStore} (I : PCore P L K G v st) (hsn : v.sn = none)
    {s s' : Sn} (hs : G[v.cur]? = some s) (hs' : G[v.cur + 1]? = some s') (hnx : v.nx = some s'.a)
    {t : Sess}
    (ht : FullSess P t s'.root (P.dhPub s'.b) (P.dhPub s'.a) (L.fix P) (effKeys L.nA).toNat)
    {s2 : State} (h1 : s2.senderSessionPub = initDHKey P s'.a)
    (h2 : s2.recipientTemp = (initDHKey P s'.b).public) (h3 : s2.nextSenderSessionPub = none)
    (h4 : s2.nextRecipientSessionPubSeen = none) (h5 : s2.senderMessageCount = 0)
    (h6 : s2.keyInitSession = false) :
    PCore P L K G { v with cur := v.cur + 1, known := v.known + 1, nx := none, sn := none, ki := false }
      { st with
        states := upd st.states (L.stateKeyA P) (some s2)
        sessions := upd st.sessions (L.skey P s'.a s'.b) (some t) } := by
  have hk : v.known = v.cur + 1 := by have := I.cur; rw [hsn] at this; exact this
  have hlt := (List.getElem?_eq_some_iff.mp hs').1
  refine ⟨?_, ?_, ?_, ?_, I.rlen, ?_, ?_, ?_, I.privs, I.mem, I.dist, ?_, ?_, I.roots, ?_, ?_,
    fun y hy => (nomatch hy), I.exd, I.newX⟩
  · simp only [Option.isSome_none, Bool.false_eq_true, if_false]; omega
  · simp only; omega
  · exact ⟨s2, s', hs', upd_same _ _ _, ⟨h1, h2, h3, h4, by
      rw [h5]; simp only [I.far (v.cur + 1) (by omega)]; rfl, h6⟩⟩
  · intro j s1 g1 g2
    by_cases e : j = v.cur + 1
    · subst e
      rw [hs'] at g2; cases g2
      refine ⟨(effKeys L.nA).toNat, t, ?_⟩
      simp only [I.far (v.cur + 1) (by omega), I.farO (v.cur + 1) (by omega)]
      exact sinv_new (effKeys_ne _) (effKeys_lt hL.nA) (upd_same _ _ _) ht
    · obtain ⟨m, t', J⟩ := I.sess j s1 (by simp only at g1; omega) g2
      exact ⟨m, t', J.moved (upd_other _ _ (I.skey_ne hK g2 hs' e))⟩
  · intro key h
    have e : key ≠ L.skey P s'.a s'.b := h (v.cur + 1) s' (by simp only; omega) hs'
    show upd st.sessions (L.skey P s'.a s'.b) (some t) key = _
    rw [upd_other _ _ e]
    exact I.only key fun j s1 g1 g2 => h j s1 (by simp only; omega) g2
  · intro j s1 g1 g2
    by_cases e : j = v.cur + 1
    · subst e
      rw [hs'] at g2; cases g2
      have := I.nxt s'.a hnx
      exact own_of_skey hP this.1 (hK.len _ this.1) I.privs this.2 (.inr rfl)
    · exact (I.own j s1 (by simp only at g1; omega) g2).other rfl rfl
  · intro y hy; cases hy
  · intro y hy; cases hy
  · intro y hy; cases hy
  · intro j hj
    exact I.far j (by have : v.cur + 1 < j := hj; omega)
  · intro j hj
    exact I.farO j (by have : v.known + 1 ≤ j := hj; omega)

omit hP in
/-- The party switches to the session it prepared itself. -/
theorem PCore.switch {L : Link} {K : List Bytes}
    {G : List Sn} {v : View} {st : MemStore} (I : PCore P L K G v st) {x : Bytes} (hsn : v.sn = some x)
    {s' : Sn} (hs' : G[v.cur + 1]? = some s')
    {s2 : State} (h1 : s2.senderSessionPub = initDHKey P s'.a)
    (h2 : s2.recipientTemp = (initDHKey P s'.b).public) (h3 : s2.nextSenderSessionPub = none)
    (h4 : s2.nextRecipientSessionPubSeen = none) (h5 : s2.senderMessageCount = 0)
    (h6 : s2.keyInitSession = false) :
    PCore P L K G { v with cur := v.cur + 1, nx := none, sn := none, ki := false }
      { st with states := upd st.states (L.stateKeyA P) (some s2) } := by
  have hk : v.known = v.cur + 2 := by have := I.cur; rw [hsn] at this; exact this
  refine ⟨?_, I.len, ?_, ?_, I.rlen, I.only, ?_, ?_, I.privs, I.mem, I.dist, ?_, ?_, I.roots, ?_, I.farO,
    fun y hy => (nomatch hy), I.exd, I.newX⟩
  · simp only [Option.isSome_none, Bool.false_eq_true, if_false]; omega
  · exact ⟨s2, s', hs', upd_same _ _ _, ⟨h1, h2, h3, h4, by
      rw [h5]; simp only [I.far (v.cur + 1) (by omega)]; rfl, h6⟩⟩
  · intro j s1 g1 g2
    obtain ⟨m, t', J⟩ := I.sess j s1 g1 g2
    exact ⟨m, t', J.moved rfl⟩
  · intro j s1 g1 g2
    exact (I.own j s1 g1 g2).other rfl rfl
  · intro y hy; cases hy
  · intro y hy; cases hy
  · intro y hy; cases hy
  · intro j hj
    exact I.far j (by have : v.cur + 1 < j := hj; omega)

omit hP in
/-- The peer prepared a session with the next key of this party. -/
theorem PCore.grow {L : Link} {K : List Bytes} {G : List Sn} {v : View} {st : MemStore}
    (I : PCore P L K G v st) (hlen : G.length = v.cur + 1) {s s' : Sn} (hs : G[v.cur]? = some s)
    (hnx : v.nx = some s'.a) (hb : s'.b ∈ K) (hr : s'.root = nextRoot P L s.root s')
    (hrl : s'.root.length = 32) : PCore P L K (G ++ [s']) v st := by
  have hsn : v.sn = none := by
    cases h : v.sn with
    | none => rfl
    | some x =>
      obtain ⟨s, h1, -⟩ := I.seen x h
      have := (List.getElem?_eq_some_iff.mp h1).1; omega
  have hk : v.known = v.cur + 1 := by have := I.cur; rw [hsn] at this; exact this
  have hget : ∀ (j : Nat) (s1 : Sn), (G ++ [s'])[j]? = some s1 →
      (j < v.cur + 1 ∧ G[j]? = some s1) ∨ (j = v.cur + 1 ∧ s1 = s') := by
    intro j s1 h
    by_cases hj : j < G.length
    · rw [List.getElem?_append_left hj] at h
      exact .inl ⟨by omega, h⟩
    · rw [List.getElem?_append_right (by omega)] at h
      have hlt := (List.getElem?_eq_some_iff.mp h).1
      have hj' : j = v.cur + 1 := by simp only [List.length_cons, List.length_nil] at hlt; omega
      refine .inr ⟨hj', ?_⟩
      rw [show j - G.length = 0 by omega] at h
      exact (Option.some.inj h).symm
  have hold : ∀ (j : Nat) (s1 : Sn), j < v.known → (G ++ [s'])[j]? = some s1 → G[j]? = some s1 := by
    intro j s1 h1 h2
    rw [List.getElem?_append_left (by omega)] at h2; exact h2
  have hnew : ∀ (j : Nat) (s1 : Sn), G[j]? = some s1 → s1.a ≠ s'.a := by
    intro j s1 h e
    have := I.nxd _ hnx j s1 h e
    have := (List.getElem?_eq_some_iff.mp h).1; omega
  refine ⟨I.cur, ?_, ?_, ?_, ?_, ?_, ?_, I.nxt, I.privs, ?_, ?_, ?_, ?_, ?_, I.far, I.farO,
    I.nxe, ?_, I.newX⟩
  · have := I.len; simp only [List.length_append]; omega
  · obtain ⟨ss, s0, h1, h2, h3⟩ := I.state
    exact ⟨ss, s0, by rw [List.getElem?_append_left (by omega)]; exact h1, h2, h3⟩
  · exact fun j s1 h1 h2 => I.sess j s1 h1 (hold j s1 h1 h2)
  · intro s1 h
    rcases List.mem_append.mp h with h | h
    · exact I.rlen s1 h
    · rw [List.mem_singleton] at h; subst h; exact hrl
  · intro key h
    exact I.only key fun j s1 h1 h2 => h j s1 h1 (by rw [List.getElem?_append_left (by omega)]; exact h2)
  · exact fun j s1 h1 h2 => I.own j s1 h1 (hold j s1 h1 h2)
  · intro s1 h
    rcases List.mem_append.mp h with h | h
    · exact I.mem s1 h
    · rw [List.mem_singleton] at h; subst h; exact ⟨(I.nxt _ hnx).1, hb⟩
  · intro j j' s1 s2 h1 h2 e
    rcases hget j s1 h1 with ⟨hj, h⟩ | ⟨hj, rfl⟩
    · rcases hget j' s2 h2 with ⟨hj', h'⟩ | ⟨hj', rfl⟩
      · exact I.dist j j' s1 s2 h h' e
      · exact absurd e (hnew j s1 h)
    · rcases hget j' s2 h2 with ⟨hj', h'⟩ | ⟨hj', rfl⟩
      · exact absurd e.symm (hnew j' s2 h')
      · omega
  · intro y hy j s1 h1 e
    rcases hget j s1 h1 with ⟨hj, h⟩ | ⟨hj, rfl⟩
    · exact I.nxd y hy j s1 h e
    · exact hj
  · intro x hx
    rw [hsn] at hx; cases hx
  · intro j s1 s2 h1 h2
    rcases hget (j + 1) s2 h2 with ⟨hj, h⟩ | ⟨hj, rfl⟩
    · rcases hget j s1 h1 with ⟨hj', h'⟩ | ⟨hj', rfl⟩
      · exact I.roots j s1 s2 h' h
      · omega
    · rcases hget j s1 h1 with ⟨hj', h'⟩ | ⟨hj', rfl⟩
      · obtain rfl : j = v.cur := by omega
        rw [hs] at h'; cases h'
        exact hr
      · omega
  · intro s1 h
    rcases List.mem_append.mp h with h | h
    · exact I.exd s1 h
    · rw [List.mem_singleton] at h; subst h; exact I.nxe _ hnx

end

/-- The store of the first user of `L`; the private parts of session keys are kept only for the
current session, while the next one is not prepared, and for the next session. -/
structure PInv (P : Prims) (L : Link) (K : List Bytes) (G : List Sn) (v : View) (st : MemStore) : Prop
    extends PCore P L K G v st where
  erased : ∀ x ∈ K, x ∉ v.ex → ∀ ke p, st.skeys (keyHash P x) = some (ke, p) → p ≠ [] →
    v.nx = some x ∨ (v.sn = none ∧ ∃ s, G[v.cur]? = some s ∧ s.a = x)

theorem PInv.curlt {P : Prims} {L : Link} {K : List Bytes} {G : List Sn} {v : View} {st : MemStore}
    (I : PInv P L K G v st) : v.cur < v.known := I.toPCore.curlt

theorem delPriv_nonblank {st : MemStore} {h h' : Str} {ke : KeyEntry} {p : Str}
    (hs : (st.delPrivSessionKey h).skeys h' = some (ke, p)) (hp : p ≠ []) :
    h' ≠ h ∧ st.skeys h' = some (ke, p) := by
  rw [delPriv_skeys] at hs
  split at hs
  · obtain ⟨y, -, e⟩ := Option.map_eq_some_iff.mp hs
    cases e; exact absurd rfl hp
  · rename_i e; exact ⟨e, hs⟩

theorem PInv.del {P : Prims} {L : Link} {K : List Bytes} {G : List Sn} {v : View} {st : MemStore}
    (I : PInv P L K G v st) (h : Str) (hn : ∀ y, v.nx = some y → keyHash P y ≠ h) :
    PInv P L K G v (st.delPrivSessionKey h) :=
  ⟨I.toPCore.del h hn, fun x hx he ke p hs hp =>
    I.erased x hx he ke p (delPriv_nonblank hs hp).2 hp⟩

theorem PInv.update {P : Prims} {L : Link} {K : List Bytes} (hK : Keys P L K) {G : List Sn} {v : View}
    {st st' : MemStore} (I : PInv P L K G v st) {j : Nat} {s : Sn} (hj : j < v.known)
    (hs : G[j]? = some s) {o : List Nat} (F : Frame (L.skey P s.a s.b) st st')
    (J : ∃ m t, SInv P (L.skey P s.a s.b) s.root (P.dhPub s.a) (P.dhPub s.b) (L.fix P) (v.sent j) o
      m st' t) :
    PInv P L K G { v with opened := fset v.opened j o } st' :=
  ⟨I.toPCore.update hK hj hs F J, by rw [F.skeys]; exact I.erased⟩

theorem PInv.sentOne {P : Prims} {L : Link} {K : List Bytes} (hK : Keys P L K) {G : List Sn} {v : View}
    {st st' : MemStore} (I : PInv P L K G v st) {s : Sn}
    (hs : G[v.cur]? = some s) (F : Frame (L.skey P s.a s.b) st st') {ss : State}
    (hss : st.states (L.stateKeyA P) = some ss)
    (J : ∃ m t, SInv P (L.skey P s.a s.b) s.root (P.dhPub s.a) (P.dhPub s.b) (L.fix P)
      (v.sent v.cur + 1) (v.opened v.cur) m st' t) :
    PInv P L K G { v with sent := fset v.sent v.cur (v.sent v.cur + 1) }
      (st'.setState (L.stateKeyA P) { ss with senderMessageCount := ss.senderMessageCount + 1 }) :=
  ⟨I.toPCore.sentOne hK hs F hss J, by
    show ∀ x ∈ K, x ∉ v.ex → ∀ ke p, st'.skeys (keyHash P x) = some (ke, p) → _
    rw [F.skeys]; exact I.erased⟩

theorem PInv.draw {P : Prims} (hP : P.Good) {L : Link} {K : List Bytes} (hK : Keys P L K) {G : List Sn}
    {v : View} {st : MemStore} (I : PInv P L K G v st) (hnx : v.nx = none) {y : Bytes} (hy : y ∈ K)
    (hex : y ∉ v.ex) (hf : ∀ s ∈ G, s.a ≠ y) {ss : State} (hss : st.states (L.stateKeyA P) = some ss) :
    PInv P L K G { v with nx := some y }
      { st with
        skeys := upd st.skeys (keyHash P y) (some ((initDHKey P y).public, P.b64 y))
        states := upd st.states (L.stateKeyA P)
          (some { ss with nextSenderSessionPub := some (initDHKey P y) }) } := by
  refine ⟨I.toPCore.draw hP hK hnx hy hex hf hss, fun x hx he ke p hs hp => ?_⟩
  by_cases e : keyHash P x = keyHash P y
  · exact .inl (by rw [hK.inj _ hx _ hy e])
  · have hs : upd st.skeys (keyHash P y) _ (keyHash P x) = some (ke, p) := hs
    rw [upd_other _ _ e] at hs
    rcases I.erased x hx he ke p hs hp with h | h
    · rw [hnx] at h; cases h
    · exact .inr h

theorem PInv.grow {P : Prims} {L : Link} {K : List Bytes} {G : List Sn} {v : View} {st : MemStore}
    (I : PInv P L K G v st) (hlen : G.length = v.cur + 1) {s s' : Sn} (hs : G[v.cur]? = some s)
    (hnx : v.nx = some s'.a) (hb : s'.b ∈ K) (hr : s'.root = nextRoot P L s.root s')
    (hrl : s'.root.length = 32) : PInv P L K (G ++ [s']) v st := by
  refine ⟨I.toPCore.grow hlen hs hnx hb hr hrl, fun x hx he ke p h hp => ?_⟩
  rcases I.erased x hx he ke p h hp with h | ⟨h, s1, h1, h2⟩
  · exact .inl h
  · exact .inr ⟨h, s1, by rw [List.getElem?_append_left (by omega)]; exact h1, h2⟩

end Two
end Verif.Msg

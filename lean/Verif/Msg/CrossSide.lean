import Verif.Msg.TwoWayErase
/-
Messages of a session that the recipient does not use (for C148).  Two users who both send a first
message before receiving one create two sessions; the one of the user with the smaller identity is
continued, the messages of the other one still have to be opened.
-/
set_option autoImplicit false
namespace Verif.Msg
open Prog
open Wire (Outer newOuter newPre readFirst)

/-- The opposite direction; `k` is the KeyInit key of the first user. -/
def Link.back (L : Link) (k : Bytes) : Link := { L.flip with kPriv := k }

namespace Two

/-! ### The KeyInit key does not matter once there is a session -/

theorem PInv.kp {P : Prims} {L : Link} {K : List Bytes} {G : List Sn} {v : View} {st : MemStore}
    (I : PInv P L K G v st) (k : Bytes) : PInv P { L with kPriv := k } K G v st :=
  ⟨⟨I.cur, I.len, I.state, I.sess, I.rlen, I.only, I.own, I.nxt, I.privs, I.mem, I.dist, I.nxd, I.seen,
    I.roots, I.far, I.farO, I.nxe, I.exd, I.newX⟩, I.erased⟩

theorem Keys.kp {P : Prims} {L : Link} {K : List Bytes} (h : Keys P L K) (k : Bytes) :
    Keys P { L with kPriv := k } K := ⟨h.a, h.b, h.len, h.inj, h.skey⟩

theorem LinkOK.kp {P : Prims} {L : Link} {uid : UID} (h : L.OK P uid) (k : Bytes) :
    Link.OK P { L with kPriv := k } uid := ⟨h.a, h.b, h.uid, h.nA, h.nB⟩

theorem Draws.kp {L : Link} {K Uh Us rest : List Bytes} (h : Draws L K Uh Us rest) (k : Bytes) :
    Draws { L with kPriv := k } K Uh Us rest := ⟨h.h, h.s, h.r, h.ab, h.nd⟩

theorem Fits.kp {P : Prims} {L : Link} {r : Round} (h : Fits P L r) (k : Bytes) :
    Fits P { L with kPriv := k } r := ⟨h.lastHash, h.identity, h.nym, h.json, h.content, h.header⟩

/-! ### Sessions beside the conversation -/

/-- Only a session beside the conversation changes. -/
theorem PInv.side {P : Prims} {L : Link} {K : List Bytes} (hK : Keys P L K) {G : List Sn} {v : View}
    {st st' : MemStore} (I : PInv P L K G v st) {x y : Bytes} (hx : x ∈ K) (hy : y ∈ K) (hex : x ∈ v.ex)
    (F : Frame (L.skey P x y) st st') :
    PInv P L K G { v with base := upd v.base (L.skey P x y) (st'.sessions (L.skey P x y)) } st' := by
  have hne : ∀ s ∈ G, L.skey P s.a s.b ≠ L.skey P x y := by
    intro s hs e
    have := (hK.skey _ (I.mem s hs).1 _ (I.mem s hs).2 _ hx _ hy e).1
    exact I.exd s hs (this ▸ hex)
  refine ⟨⟨I.cur, I.len, ?_, ?_, I.rlen, ?_, ?_, ?_, ?_, I.mem, I.dist, I.nxd, I.seen,
    I.roots, I.far, I.farO, I.nxe, I.exd, ?_⟩, ?_⟩
  · obtain ⟨ss, s, h1, h2, h3⟩ := I.state
    exact ⟨ss, s, h1, by rw [F.states]; exact h2, ⟨h3.own, h3.peer, h3.next, h3.seen, h3.count, h3.ki⟩⟩
  · intro j s h1 h2
    obtain ⟨m, t, J⟩ := I.sess j s h1 h2
    exact ⟨m, t, J.moved (F.sess _ (hne s (List.mem_of_getElem? h2)))⟩
  · intro key h
    by_cases e : key = L.skey P x y
    · subst e
      exact (upd_same _ _ _).symm
    · rw [F.sess _ e]
      refine (I.only key h).trans ?_
      exact (upd_other _ _ e).symm
  · intro j s h1 h2
    unfold Own
    rw [F.privs, F.skeys]
    exact I.own j s h1 h2
  · intro y hy
    rw [F.skeys]; exact I.nxt y hy
  · rw [F.privs]; exact I.privs
  · intro y' hy' he x' hx'
    refine (upd_other _ _ ?_).trans (I.newX y' hy' he x' hx')
    intro e
    have := (hK.skey _ hy' _ hx' _ hx _ hy e).1
    exact he (this ▸ hex)
  · show ∀ x ∈ K, x ∉ v.ex → ∀ ke p, st'.skeys _ = _ → _
    rw [F.skeys]; exact I.erased

/-- The session beside the conversation: own key `k`, peer's key `s`. -/
def Beside (P : Prims) (M : Link) (q : Sn) (v : View) (o : List Nat) : Prop :=
  (v.base (M.flip.skey P q.a q.b) = none ∧ o = []) ∨
  ∃ m t, SInv P (M.flip.skey P q.a q.b) q.root (P.dhPub q.a) (P.dhPub q.b) (M.fix P) 0 o m
    { MemStore.new with sessions := v.base } t

section
variable {P : Prims} (hP : P.Good)
include hP

/-- Session handling for a message of a session beside the conversation. -/
theorem dec_beside {M : Link} {uid : UID} (hL : M.OK P uid) {K : List Bytes} (hK : Keys P M.flip K)
    {G : List Sn} {v : View} {B : MemStore} (I : PInv P M.flip K G v B)
    (hpriv : B.privs (keyHash P M.kPriv) = some (initDHKey P M.kPriv)) (hk : M.kPriv ∈ v.ex)
    (hord : ¬ M.alice.identity < M.bob.identity) (hkK : M.kPriv ∈ K) {s : Bytes} (hsK : s ∈ K)
    {i : Nat} {nx sn : Option Bytes} {h : Header} (H : Hdr P M (firstSn P M s) i nx sn h) (a : DecArgs)
    {hp : Bytes} (hpK : hp ∈ K) (hd : [hp, M.aPriv, s, M.bPriv, M.kPriv].Nodup) {o : List Nat}
    (hS : Beside P M (firstSn P M s).flip v o) :
    ∃ sb B1 v1, (decSession P a (effKeys M.nB) (P.dhPub hp) M.bob h).run (MemStore.handle P) B =
        (.ok (some sb), B1) ∧ B1.states (M.flip.stateKeyA P) = some sb ∧
      (∃ b, v1 = { v with base := b }) ∧ PInv P M.flip K G v1 B1 ∧
      ∃ m t, SInv P (M.flip.skey P M.kPriv s) (firstSn P M s).root (P.dhPub M.kPriv) (P.dhPub s)
        (M.fix P) 0 o m B1 t := by
  obtain ⟨ss, s0, hs0, hst, hss⟩ := I.state
  have hK0 := I.mem s0 (List.mem_of_getElem? hs0)
  have h3 : h.senderSessionPub = (initDHKey P s).public := H.sess
  have h4 := H.idp
  have h5 : h.recipientTempHash = keyHash P M.kPriv := H.temp
  have hkey : decSessionKey P M.bob h = M.flip.skey P M.kPriv s := by
    simp only [decSessionKey, hL.b, h3, h4, h5]; rfl
  have hfix : identityFix P h.senderIdentity M.bob.identity = M.fix P := by rw [H.ident]; rfl
  have hbase : B.sessions (M.flip.skey P M.kPriv s) = v.base (M.flip.skey P M.kPriv s) := by
    refine I.only _ fun j s' _ h2 e => ?_
    have hm := List.mem_of_getElem? h2
    have := (hK.skey _ hkK _ hsK _ (I.mem s' hm).1 _ (I.mem s' hm).2 e).1
    exact I.exd s' hm (this ▸ hk)
  have hcur : keyHash P M.kPriv ≠ ss.senderSessionPub.hash := by
    rw [hss.own]
    intro e
    have := hK.inj _ hkK _ hK0.1 e
    exact I.exd s0 (List.mem_of_getElem? hs0) (this ▸ hk)
  have hnx : ∀ y, v.nx = some y → keyHash P y ≠ keyHash P M.kPriv := by
    intro y hy e
    have := hK.inj _ (I.nxt y hy).1 _ hkK e
    exact I.nxe y hy (this ▸ hk)
  unfold decSession
  simp only [bind_eq, hL.b, h4, initDHKey_pub32 P hP, initDHKey_public_pub32 P hP, orPanic, ret_bind]
  rw [show calcStateKey P (P.dhPub M.bPriv) (P.dhPub M.aPriv) = M.flip.stateKeyA P from rfl]
  rw [run_bind_of_ok (a := some ss) (s1 := B) _ (by
    rw [run_ask_ok]; simp only [MemStore.handle]; rw [hst])]
  rcases hS with ⟨hno, rfl⟩ | ⟨m, t, J⟩
  · have hno : B.sessions (M.flip.skey P M.kPriv s) = none := hbase.trans hno
    rw [run_bind_of_ok (a := false) (s1 := B) _ (by
      rw [run_try', hkey]; simp only [MemStore.handle, MemStore.hasSession, hno, Option.isSome_none])]
    rw [if_neg (by simp)]
    have hd1 := hK.diff [hp, M.aPriv, s, M.bPriv, M.kPriv] (by
      intro z hz
      simp only [List.mem_cons, List.not_mem_nil, or_false] at hz
      rcases hz with rfl | rfl | rfl | rfl | rfl
      · exact hpK
      · exact hK.b
      · exact hsK
      · exact hK.a
      · exact hkK) hd
    obtain ⟨t, ft, rt⟩ := run_generate_new P h.senderIdentity M.bob.identity
      (initDHKey P M.aPriv).public.hash (initDHKey P M.bPriv).hash
      (firstSn P M s).root true (P.dhPub s) (P.dhPub M.kPriv) (effKeys M.nB)
      (effKeys_ne _) B hno
    rw [show genKey P (initDHKey P M.aPriv).public.hash (initDHKey P M.bPriv).hash true (P.dhPub s)
        (P.dhPub M.kPriv) = M.flip.skey P M.kPriv s from rfl] at rt
    rw [hfix] at ft
    unfold decUnknown
    simp only [bind_eq]
    rw [run_bind_of_ok (a := .ok (initDHKey P M.kPriv)) (s1 := B) _ (by
      rw [run_try', h5]; simp only [MemStore.handle, MemStore.getPrivateKeyEntry, hpriv])]
    simp only [hL.b]
    rw [h4, h3, rkaRecipient_eq P hP _ _ _ s M.aPriv M.kPriv M.bPriv _ _ (initDHKey_public_pub32 P hP _)
      (initDHKey_public_pub32 P hP _) none _ hd1]
    rw [show deriveRootKey P (P.dh M.aPriv (P.dhPub M.kPriv)) (P.dh s (P.dhPub M.kPriv))
      (P.dh s (P.dhPub M.bPriv)) none = (firstSn P M s).root from rfl]
    rw [run_bind_of_ok _ rt]
    rw [if_neg (by rw [H.ident]; simp [hord])]
    have J := sinv_new (effKeys_ne _) (effKeys_lt hL.nB)
      (st := B.setSess (M.flip.skey P M.kPriv s) t) (upd_same _ _ _) ft
    exact ⟨ss, _, _, rfl, hst, ⟨_, rfl⟩, I.side hK hkK hsK hk (Frame.setSess _ _ _), _, t, J⟩
  · have hsome : B.sessions (M.flip.skey P M.kPriv s) = some t := hbase.trans J.sess
    rw [run_bind_of_ok (a := true) (s1 := B) _ (by
      rw [run_try', hkey]; simp only [MemStore.handle, MemStore.hasSession, hsome, Option.isSome_some])]
    rw [if_pos rfl, hkey]
    unfold decKnown
    simp only [bind_eq, orPanic, ret_bind, hL.b, h4]
    rw [if_neg (by rw [h5]; exact fun e => hcur e.1)]
    have hfin : ∀ (st : MemStore), (Prog.ask (.delSKey h.recipientTempHash) |>.bind
        fun _ => Prog.ret (some ss)).run (MemStore.handle P) st =
        (.ok (some ss), st.delPrivSessionKey (keyHash P M.kPriv)) := by
      intro st
      rw [run_bind_of_ok (a := ()) (s1 := st.delPrivSessionKey (keyHash P M.kPriv)) _ (by
        rw [run_ask_ok, h5]; rfl)]
      rfl
    have hdp := delPriv_privs B (keyHash P M.kPriv)
    refine ⟨ss, B.delPrivSessionKey (keyHash P M.kPriv), v, ?_, by rw [hdp.2.2]; exact hst, ⟨v.base, rfl⟩,
      I.del _ hnx, m, t, J.moved (by rw [hdp.2.1]; exact hbase)⟩
    cases hvn : v.nx with
    | none =>
      simp only [hss.next, hvn, Option.map_none]
      cases ss.nextRecipientSessionPubSeen <;> exact hfin _
    | some y =>
      simp only [hss.next, hvn, Option.map_some]
      cases ss.nextRecipientSessionPubSeen with
      | none => exact hfin _
      | some z =>
        simp only
        rw [if_neg (by
          rintro ⟨e, -⟩
          rw [h5] at e
          exact hnx y hvn e)]
        exact hfin _

/-- A message of a session beside the conversation is opened like any other. -/
theorem open_beside {M : Link} {uid : UID} (hL : M.OK P uid) {K : List Bytes} (hK : Keys P M.flip K)
    {G : List Sn} {v : View} {B : MemStore} (I : PInv P M.flip K G v B)
    (hpriv : B.privs (keyHash P M.kPriv) = some (initDHKey P M.kPriv)) (hk : M.kPriv ∈ v.ex)
    (hord : ¬ M.alice.identity < M.bob.identity) (hkK : M.kPriv ∈ K) {s : Bytes} (hsK : s ∈ K)
    {r : Round} (hr : r.OK P uid) (hc : r.content.length ≤ maxContentLength)
    {i : Nat} (hi : i < 2 ^ 62) {nx sn : Option Bytes} {h : Header}
    (H : Hdr P M (firstSn P M s) i nx sn h) (hparse : P.parse (P.marshal h) = some h) (fresh : Bytes)
    (hpK : r.rnd.headerPriv ∈ K) (hd : [r.rnd.headerPriv, M.aPriv, s, M.bPriv, M.kPriv].Nodup)
    {o : List Nat} (hS : Beside P M (firstSn P M s).flip v o) :
    ∃ B' v', (∃ b, v' = { v with base := b }) ∧ PInv P M.flip K G v' B' ∧
      ((i ∉ o ∧ openStep P M fresh (wireOf P M r h (firstSn P M s) i) B =
          (some (r.content, M.alice.identity, sigOf P r.sigKey r.content), B') ∧
        Beside P M (firstSn P M s).flip v' (i :: o)) ∨
      ((i ∈ o ∨ 301 < roundUp i (effKeys M.nB).toNat) ∧
        openStep P M fresh (wireOf P M r h (firstSn P M s) i) B = (none, B') ∧
        Beside P M (firstSn P M s).flip v' o)) := by
  have H' : Hdr P M (firstSn P M s).flip.flip i nx sn h := by rw [Sn.flip_flip]; exact H
  have hds := dec_beside hP hL hK I hpriv hk hord hkK hsK H
    ⟨[M.bob], (newPre (P.dhPub r.rnd.headerPriv)).write,
        (newOuter Wire.encryptedHeader 1 (r.rnd.nonce ++ be16 7168 ++
          P.boxSeal (P.marshal h) r.rnd.nonce (P.dhPub M.bPriv) r.rnd.headerPriv)).write true ++
          encBody P (senderKey P (firstSn P M s).flip.root (P.dhPub (firstSn P M s).flip.a) (M.fix P) i)
            r.rnd r.sigKey r.content, M.nB, fresh⟩ hpK hd hS
  obtain ⟨sb, B1, v1, d1, d2, ⟨b, rfl⟩, I1, m, t, J⟩ := hds
  have hp1 : B1.privs (keyHash P M.kPriv) = some (initDHKey P M.kPriv) := by
    have := run_privs P (decSession P ⟨[M.bob], (newPre (P.dhPub r.rnd.headerPriv)).write,
        (newOuter Wire.encryptedHeader 1 (r.rnd.nonce ++ be16 7168 ++
          P.boxSeal (P.marshal h) r.rnd.nonce (P.dhPub M.bPriv) r.rnd.headerPriv)).write true ++
          encBody P (senderKey P (firstSn P M s).flip.root (P.dhPub (firstSn P M s).flip.a) (M.fix P) i)
            r.rnd r.sigKey r.content, M.nB, fresh⟩ (effKeys M.nB) (P.dhPub r.rnd.headerPriv) M.bob h) B
    rw [d1] at this
    rw [show B1.privs = B.privs from this, hpriv]
  obtain ⟨ss, s0, hs0, hst, hss⟩ := I1.state
  rw [d2] at hst; cases hst
  have hm0 := List.mem_of_getElem? hs0
  obtain ⟨B', F, hB⟩ := dec_core hP hL hr hc (q := (firstSn P M s).flip) (k := 0) (o := o) J
    (deriveRootKey_len P hP _ _ _ _) hi (by omega) H' hparse (sb := sb) (.inr ⟨by
      rw [hss.own]
      intro e
      have := hK.inj _ hkK _ (I1.mem s0 hm0).1 e
      exact I1.exd s0 hm0 (this ▸ hk), .inl ⟨_, hp1, initDHKey_pub32 P hP _⟩⟩) fresh d1
  rw [Sn.flip_flip] at hB
  have I2 := I1.side hK hkK hsK hk F
  have hmv : ∀ (o : List Nat) (m : Nat) (t : Sess), SInv P (M.flip.skey P M.kPriv s) (firstSn P M s).flip.root
        (P.dhPub M.kPriv) (P.dhPub s) (M.fix P) 0 o m B' t →
      Beside P M (firstSn P M s).flip { v with
        base := upd b (M.flip.skey P M.kPriv s) (B'.sessions (M.flip.skey P M.kPriv s)) } o := by
    intro o m t J
    exact .inr ⟨m, t, J.moved (upd_same _ _ _)⟩
  refine ⟨B', _, ⟨_, rfl⟩, I2, ?_⟩
  rcases hB with ⟨g1, g2, m', t', J'⟩ | ⟨g1, g2, m', t', J'⟩
  · exact .inl ⟨g1, g2, hmv _ _ _ J'⟩
  · exact .inr ⟨g1, g2, hmv _ _ _ J'⟩

end
end Two
end Verif.Msg

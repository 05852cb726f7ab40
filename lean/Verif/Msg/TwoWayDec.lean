import Verif.Msg.TwoWayEnc
/-
Opening a message in a two-way conversation (for C145).  `L` is seen from the sender of the
message, the invariant from its recipient.
-/
set_option autoImplicit false
namespace Verif.Msg
open Prog
open Wire (Outer newOuter newPre readFirst)
namespace Two

theorem str_lt_asymm (a b : Str) (h : a < b) : ¬ b < a := fun h' => List.lt_irrefl a (List.lt_trans h h')

theorem identityFix_comm (P : Prims) (a b : Str) : identityFix P a b = identityFix P b a := by
  unfold identityFix
  congr 1
  by_cases h : a < b
  · rw [if_pos h, if_neg (str_lt_asymm a b h)]
  · by_cases h' : b < a
    · rw [if_neg h, if_pos h']
    · rw [if_neg h, if_neg h', List.le_antisymm h h']

theorem fix_flip (P : Prims) (L : Link) : L.flip.fix P = L.fix P := identityFix_comm P _ _

theorem upd_upd {α : Type} (f : Str → Option α) (k : Str) (a b : Option α) :
    upd (upd f k a) k b = upd f k b := by
  funext x
  unfold upd
  split <;> rfl

/-- The sessions and the recipient's view after a message of session `j` that names the next keys
`nx` and `sn` (msg/decrypt.go:237-345); `M` is seen from the recipient. -/
def recvStep (P : Prims) (M : Link) (fresh : Bytes) (nx sn : Option Bytes) (j : Nat) (G : List Sn)
    (v : View) : List Sn × View :=
  if j = v.cur then
    match nx, v.nx with
    | none, _ => (G, v)
    | some x, none =>
      (G ++ [⟨fresh, x, nextRoot P M ((G[v.cur]?.map Sn.root).getD []) ⟨fresh, x, [], true⟩, true⟩],
        { v with known := v.known + 1, nx := some fresh, sn := some x })
    | some _, some y =>
      if sn = some y then
        (G, { v with cur := v.cur + 1, known := v.known + 1, nx := none, sn := none, ki := false })
      else (G, v)
  else if j = v.cur + 1 then (G, { v with cur := v.cur + 1, nx := none, sn := none, ki := false })
  else (G, v)

theorem recvStep_base (P : Prims) (M : Link) (fresh : Bytes) (nx sn : Option Bytes) (j : Nat)
    (G : List Sn) (v : View) : (recvStep P M fresh nx sn j G v).2.base = v.base ∧
      (recvStep P M fresh nx sn j G v).2.ex = v.ex := by
  unfold recvStep
  repeat' split
  all_goals exact ⟨rfl, rfl⟩

section
variable {P : Prims} (hP : P.Good)
include hP

/-- Session handling of Decrypt for a known session. -/
theorem dec_session {L : Link} {uid : UID} (hL : L.OK P uid) {uid' : UID} (hL' : L.flip.OK P uid')
    {K : List Bytes} (hK : Keys P L.flip K) {G : List Sn} {v : View} {B : MemStore}
    (I : PInv P L.flip K G v B) {j i : Nat} {q : Sn} (hj : j < v.known) (hq : G[j]? = some q)
    {nx sn : Option Bytes} {h : Header} (H : Hdr P L q.flip i nx sn h) (a : DecArgs) {hp : Bytes}
    (hpK : hp ∈ K) (hnxK : ∀ x, nx = some x → x ∈ K)
    (hsnK : ∀ x, sn = some x → x ∈ K)
    (hprep : ∀ x, j = v.cur → nx = some x → v.nx = none → G.length = v.cur + 1 ∧ a.fresh ∈ K ∧
      a.fresh ∉ v.ex ∧ (∀ s ∈ G, s.a ≠ a.fresh) ∧ [hp, L.bPriv, a.fresh, L.aPriv, x].Nodup)
    (hsw : ∀ x y, j = v.cur → nx = some x → v.nx = some y → sn = some y → v.sn = none ∧
      (∃ s', G[v.cur + 1]? = some s' ∧ s'.mine = false ∧ s'.a = y ∧ s'.b = x) ∧
      [hp, L.aPriv, x, L.bPriv, y].Nodup) :
    ∃ sb B1, (decSession P a (effKeys L.nB) (P.dhPub hp) L.bob h).run (MemStore.handle P) B =
        (.ok (some sb), B1) ∧ B1.states (L.flip.stateKeyA P) = some sb ∧
      PInv P L.flip K (recvStep P L.flip a.fresh nx sn j G v).1
        (recvStep P L.flip a.fresh nx sn j G v).2 B1 := by
  obtain ⟨ss, s0, hs0, hst, hss⟩ := I.state
  have hmq := List.mem_of_getElem? hq
  have hm0 := List.mem_of_getElem? hs0
  have hKq := I.mem q hmq
  have hK0 := I.mem s0 hm0
  have h5 : h.recipientTempHash = keyHash P q.a := H.temp
  have h3 : h.senderSessionPub = (initDHKey P q.b).public := H.sess
  have h4 := H.idp
  have hkey : decSessionKey P L.bob h = L.flip.skey P q.a q.b := by
    simp only [decSessionKey, hL.b, h3, h4, h5]; rfl
  obtain ⟨m, t, J⟩ := I.sess j q hj hq
  -- after the state was determined, the private part of the session key is deleted
  have hfin : ∀ (s' : State) (st : MemStore), (Prog.ask (.delSKey h.recipientTempHash) |>.bind
      fun _ => Prog.ret (some s')).run (MemStore.handle P) st =
      (.ok (some s'), st.delPrivSessionKey (keyHash P q.a)) := by
    intro s' st
    rw [run_bind_of_ok (a := ()) (s1 := st.delPrivSessionKey (keyHash P q.a)) _ (by
      rw [run_ask_ok, h5]; rfl)]
    rfl
  have hstates : ∀ (st : MemStore) (k : Str), (st.delPrivSessionKey k).states = st.states :=
    fun st k => (delPriv_privs st k).2.2
  unfold decSession
  simp only [bind_eq, hL.b, h4, initDHKey_pub32 P hP, initDHKey_public_pub32 P hP, orPanic, ret_bind]
  rw [show calcStateKey P (P.dhPub L.bPriv) (P.dhPub L.aPriv) = L.flip.stateKeyA P from rfl]
  rw [run_bind_of_ok (a := some ss) (s1 := B) _ (by
    rw [run_ask_ok]; simp only [MemStore.handle]; rw [hst])]
  rw [run_bind_of_ok (a := true) (s1 := B) _ (by
    rw [run_try', hkey]; simp only [MemStore.handle, MemStore.hasSession, J.sess, Option.isSome_some])]
  rw [if_pos rfl, hkey]
  unfold decKnown
  simp only [bind_eq, orPanic, ret_bind, hL.b, h4]
  unfold recvStep
  by_cases hjc : j = v.cur
  · subst hjc
    rw [hq] at hs0; cases hs0
    rw [if_pos (by rw [h5, hss.own, h3, hss.peer]; exact ⟨rfl, rfl⟩), if_pos rfl]
    have hstay : ∀ y, v.nx = some y → keyHash P y ≠ keyHash P q.a := by
      intro y hy e
      have := hK.inj y (I.nxt y hy).1 _ hKq.1 e
      have := I.nxd y hy _ _ hq this.symm
      omega
    cases nx with
    | none =>
      simp only [H.next, Option.map_none]
      exact ⟨ss, _, hfin _ _, by rw [hstates]; exact hst, I.del _ hstay⟩
    | some x =>
      simp only [H.next, Option.map_some]
      cases hvn : v.nx with
      | none =>
        simp only [hss.next, hvn, Option.map_none, hq, Option.map_some, Option.getD_some]
        obtain ⟨g1, g2, gx, g3, g4⟩ := hprep x rfl rfl hvn
        have hxK := hnxK x rfl
        have hsn : v.sn = none := by
          cases hs : v.sn with
          | none => rfl
          | some x' =>
            obtain ⟨s, -, -, e, -⟩ := I.seen x' hs
            rw [hvn] at e; cases e
        have hseen : ss.nextRecipientSessionPubSeen = none := by rw [hss.seen, hsn]; rfl
        let s1 : State := { ss with nextSenderSessionPub := some (initDHKey P a.fresh) }
        let s2 : State := { s1 with nextRecipientSessionPubSeen := some (initDHKey P x).public }
        let B1 : MemStore := { B with
          skeys := upd B.skeys (keyHash P a.fresh) (some ((initDHKey P a.fresh).public, P.b64 a.fresh))
          states := upd B.states (L.flip.stateKeyA P) (some s1) }
        have hno : B1.sessions (L.flip.skey P a.fresh x) = none := by
          refine (I.only _ fun j' s' _ e2 e3 => ?_).trans (I.newX _ g2 gx _ hxK)
          have hm := List.mem_of_getElem? e2
          exact g3 s' hm (hK.skey _ g2 _ hxK _ (I.mem s' hm).1 _ (I.mem s' hm).2 e3).1.symm
        have hd := hK.diff [hp, L.bPriv, a.fresh, L.aPriv, x] (by
          intro z hz
          simp only [List.mem_cons, List.not_mem_nil, or_false] at hz
          rcases hz with rfl | rfl | rfl | rfl | rfl
          · exact hpK
          · exact hK.a
          · exact g2
          · exact hK.b
          · exact hxK) g4
        obtain ⟨t', ft', rt'⟩ := run_generate_new P L.bob.identity h.senderIdentity
          (initDHKey P L.bPriv).hash (initDHKey P L.aPriv).public.hash
          (nextRoot P L.flip q.root ⟨a.fresh, x, [], true⟩) false (P.dhPub a.fresh) (P.dhPub x)
          (effKeys L.nB) (effKeys_ne _) B1 (by exact hno)
        rw [show genKey P (initDHKey P L.bPriv).hash (initDHKey P L.aPriv).public.hash false
          (P.dhPub a.fresh) (P.dhPub x) = L.flip.skey P a.fresh x from rfl] at rt'
        rw [H.ident] at ft'
        have hset : (setNextSenderSessionPub P ss (L.flip.stateKeyA P) a.fresh).run (MemStore.handle P) B =
            (.ok (s1, initDHKey P a.fresh), B1) := by
          simp only [setNextSenderSessionPub, addSessionKey, bind_eq, initDHKey_priv32, orPanic, ret_bind]
          rw [run_bind_of_ok (a := ()) _ (by rw [run_ask_ok]; rfl)]
          rw [run_bind_of_ok (a := ()) _ (by rw [run_ask_ok]; rfl)]
          rfl
        have hI := I.toPCore.prepare hP hL' hK hvn g1 hxK g2 gx g3 hq hst ft' (s2 := s2)
          ⟨hss.own, hss.peer, rfl, rfl, hss.count, hss.ki⟩
        let B2 : MemStore := { B with
          skeys := upd B.skeys (keyHash P a.fresh) (some ((initDHKey P a.fresh).public, P.b64 a.fresh))
          states := upd B.states (L.flip.stateKeyA P) (some s2)
          sessions := upd B.sessions (L.flip.skey P a.fresh x) (some t') }
        refine ⟨s2, B2.delPrivSessionKey (keyHash P q.a), ?_, by rw [hstates]; exact upd_same _ _ _,
          PCore.del (st := B2) hI _ ?_, ?_⟩
        · rw [run_bind_of_ok _ hset]
          simp only
          rw [run_bind_of_ok (a := P.sha512 q.root) (s1 := B1) _ (by
            rw [run_ask_ok]; simp only [MemStore.handle]
            exact congrArg (·, B1) ((J.moved (st' := B1) rfl).rootKeyHash hP))]
          rw [rkaSender_eq P hP _ _ _ a.fresh L.bPriv x L.aPriv _ _ (initDHKey_public_pub32 P hP _)
            (initDHKey_public_pub32 P hP _) _ _ hd]
          refine (run_bind_of_ok _ rt').trans ?_
          rw [if_pos (by show (ss.nextRecipientSessionPubSeen.isNone) = true; rw [hseen]; rfl)]
          refine (run_bind_of_ok (a := ()) (s1 := B2) _ ?_).trans (hfin _ _)
          rw [run_ask_ok]
          show (Except.ok (), { B1.setSess (L.flip.skey P a.fresh x) t' with
            states := upd (upd B.states (L.flip.stateKeyA P) (some s1)) (L.flip.stateKeyA P) (some s2) }) = _
          rw [upd_upd]; rfl
        · intro y hy e
          obtain rfl : a.fresh = y := Option.some.inj hy
          exact g3 q hmq (hK.inj _ hKq.1 _ g2 e.symm)
        · intro z hz he ke p hs hp
          obtain ⟨hne, hs⟩ := delPriv_nonblank hs hp
          by_cases e : keyHash P z = keyHash P a.fresh
          · exact .inl (by rw [hK.inj _ hz _ g2 e])
          · have hs : upd B.skeys (keyHash P a.fresh) _ (keyHash P z) = some (ke, p) := hs
            rw [upd_other _ _ e] at hs
            rcases I.erased z hz he ke p hs hp with h | ⟨-, s1, h1, h2⟩
            · rw [hvn] at h; cases h
            · rw [hq] at h1; cases h1
              exact absurd (by rw [h2]) hne
      | some y =>
        simp only [hss.next, hvn, Option.map_some]
        have hany : (h.nextRecipientSessionPubSeen.any fun z => decide (z.hash = (initDHKey P y).hash)) =
            decide (∃ z, sn = some z ∧ keyHash P z = keyHash P y) := by
          rw [H.seen]
          cases sn with
          | none => simp
          | some z =>
            simp only [Option.map_some, Option.any_some, Option.some.injEq, exists_eq_left']
            rfl
        rw [hany]
        by_cases hsy : ∃ z, sn = some z ∧ keyHash P z = keyHash P y
        · obtain ⟨z, hz, hzy⟩ := hsy
          have hyK := I.nxt y hvn
          have hxK := hnxK x rfl
          obtain rfl := hK.inj _ (hsnK z hz) _ hyK.1 hzy
          obtain ⟨hsn, ⟨s', hs', hmine, rfl, rfl⟩, g4⟩ := hsw x z rfl rfl hvn hz
          rw [if_pos (by simpa using ⟨s'.a, hz, rfl⟩), if_pos hz]
          have hd := hK.diff [hp, L.aPriv, s'.b, L.bPriv, s'.a] (by
            intro z hz
            simp only [List.mem_cons, List.not_mem_nil, or_false] at hz
            rcases hz with rfl | rfl | rfl | rfl | rfl
            · exact hpK
            · exact hK.b
            · exact hxK
            · exact hK.a
            · exact hyK.1) g4
          have hget : (getSessionKey P (initDHKey P s'.a).hash).run (MemStore.handle P) B =
              (.ok (initDHKey P s'.a), B) := by
            unfold getSessionKey
            simp only [bind_eq]
            rw [run_bind_of_ok (a := ((initDHKey P s'.a).public, P.b64 s'.a)) (s1 := B) _ (by
              rw [run_ask_ok]; simp only [MemStore.handle, MemStore.getSessionKey]
              exact congrArg (fun o => ((match o with
                | none => .error .noKeyEntry
                | some x => .ok x : Except SErr (KeyEntry × Str)), B)) hyK.2)]
            have hne : P.b64 s'.a ≠ [] := by
              intro e
              have := hP.b64_len s'.a
              rw [e, hK.len _ hyK.1] at this
              simp at this
            simp only [hne, if_false, hP.unb64_b64, hK.len _ hyK.1]
            rfl
          have hno : B.sessions (L.flip.skey P s'.a s'.b) = none := by
            refine (I.only _ fun j' s'' e1 e2 e3 => ?_).trans
              (I.newX _ hyK.1 (I.nxe _ hvn) _ hxK)
            have hm := I.mem _ (List.mem_of_getElem? e2)
            have := I.nxd _ hvn j' s'' e2 (hK.skey _ hyK.1 _ hxK _ hm.1 _ hm.2 e3).1.symm
            have hk := I.cur
            rw [hsn] at hk
            simp only [Option.isSome_none, Bool.false_eq_true, if_false] at hk
            omega
          obtain ⟨t', ft', rt'⟩ := run_generate_new P h.senderIdentity L.bob.identity
            (initDHKey P L.aPriv).public.hash (initDHKey P L.bPriv).hash s'.root true
            (P.dhPub s'.b) (P.dhPub s'.a) (effKeys L.nB) (effKeys_ne _) B (by exact hno)
          rw [show genKey P (initDHKey P L.aPriv).public.hash (initDHKey P L.bPriv).hash true
            (P.dhPub s'.b) (P.dhPub s'.a) = L.flip.skey P s'.a s'.b from rfl] at rt'
          rw [H.ident] at ft'
          have hroot : s'.root = deriveRootKey P (P.dh L.aPriv (P.dhPub s'.a)) (P.dh s'.b (P.dhPub s'.a))
              (P.dh s'.b (P.dhPub L.bPriv)) (some (P.sha512 q.root)) := by
            rw [I.roots _ _ _ hq hs']
            unfold nextRoot
            rw [if_neg (by rw [hmine]; exact Bool.false_ne_true)]
            rfl
          let s2 : State := { senderSessionCount := ss.senderSessionCount + ss.senderMessageCount
                              senderMessageCount := 0, maxRecipientCount := 0
                              recipientTemp := (initDHKey P s'.b).public
                              senderSessionPub := initDHKey P s'.a, nextSenderSessionPub := none
                              nextRecipientSessionPubSeen := none, nymAddress := h.nymAddress
                              keyInitSession := false }
          have hI := I.toPCore.switchNew hP hL' hK hsn hq hs' hvn (by
            rw [fix_flip]; exact ft') (s2 := s2) rfl rfl rfl rfl rfl rfl
          let B2 : MemStore := { B with
            states := upd B.states (L.flip.stateKeyA P) (some s2)
            sessions := upd B.sessions (L.flip.skey P s'.a s'.b) (some t') }
          refine ⟨s2, B2.delPrivSessionKey (keyHash P q.a), ?_, by rw [hstates]; exact upd_same _ _ _,
            PCore.del (st := B2) hI _ (fun y hy => nomatch hy), fun z hz he ke p hs hp => ?_⟩
          rotate_left
          · obtain ⟨hne, hs⟩ := delPriv_nonblank hs hp
            rcases I.erased z hz he ke p hs hp with h | ⟨-, s1, h1, h2⟩
            · rw [hvn] at h
              exact .inr ⟨rfl, s', hs', Option.some.inj h⟩
            · rw [hq] at h1; cases h1
              exact absurd (by rw [h2]) hne
          rw [run_bind_of_ok _ hget]
          rw [run_bind_of_ok (a := P.sha512 q.root) (s1 := B) _ (by
            rw [run_ask_ok]; simp only [MemStore.handle]
            exact congrArg (·, B) (J.rootKeyHash hP))]
          rw [rkaRecipient_eq P hP _ _ _ s'.b L.aPriv s'.a L.bPriv _ _ (initDHKey_public_pub32 P hP _)
            (initDHKey_public_pub32 P hP _) _ _ hd, ← hroot]
          refine (run_bind_of_ok _ rt').trans ?_
          refine (run_bind_of_ok (a := ()) (s1 := B2) _ ?_).trans (hfin _ _)
          rw [run_ask_ok]
          rfl
        · rw [if_neg (by simpa using hsy), if_neg]
          · exact ⟨ss, _, hfin _ _, by rw [hstates]; exact hst, I.del _ hstay⟩
          · rintro rfl
            exact hsy ⟨y, rfl, rfl⟩
  · rw [if_neg hjc]
    have hne : ¬ (h.recipientTempHash = ss.senderSessionPub.hash ∧
        h.senderSessionPub.hash = ss.recipientTemp.hash) := by
      intro e
      have e1 := e.1
      rw [h5, hss.own] at e1
      exact hjc (I.dist _ _ _ _ hq hs0 (hK.inj _ hKq.1 _ hK0.1 e1))
    rw [if_neg hne]
    have hold : j ≠ v.cur + 1 → ∀ y, v.nx = some y → keyHash P y ≠ keyHash P q.a := by
      intro h1 y hy e
      exact h1 (I.nxd y hy _ _ hq (hK.inj _ (I.nxt y hy).1 _ hKq.1 e).symm)
    have hkc := I.cur
    cases hvs : v.sn with
    | none =>
      rw [hvs] at hkc
      simp only [Option.isSome_none, Bool.false_eq_true, if_false] at hkc
      have hj1 : j ≠ v.cur + 1 := by omega
      rw [if_neg hj1]
      simp only [hss.seen, hvs, Option.map_none]
      refine ⟨ss, _, ?_, by rw [hstates]; exact hst, I.del _ (hold hj1)⟩
      cases ss.nextSenderSessionPub <;> exact hfin _ _
    | some x =>
      obtain ⟨s', g1, g2, g3, g4⟩ := I.seen x hvs
      simp only [hss.seen, hvs, hss.next, g3, Option.map_some]
      by_cases hj1 : j = v.cur + 1
      · rw [if_pos hj1]
        subst hj1
        rw [hq] at g1; cases g1
        rw [if_pos (by rw [h5, h3, g4]; exact ⟨rfl, rfl⟩)]
        let s2 : State := { senderSessionCount := ss.senderSessionCount + ss.senderMessageCount
                            senderMessageCount := 0, maxRecipientCount := 0
                            recipientTemp := h.senderSessionPub
                            senderSessionPub := initDHKey P q.a, nextSenderSessionPub := none
                            nextRecipientSessionPubSeen := none, nymAddress := h.nymAddress
                            keyInitSession := false }
        have hI := I.toPCore.switch hvs hq (s2 := s2) rfl h3 rfl rfl rfl rfl
        let B2 : MemStore := { B with states := upd B.states (L.flip.stateKeyA P) (some s2) }
        refine ⟨s2, B2.delPrivSessionKey (keyHash P q.a), ?_, by rw [hstates]; exact upd_same _ _ _,
            PCore.del (st := B2) hI _ (fun y hy => nomatch hy), fun z hz he ke p hs hp => ?_⟩
        rotate_left
        · obtain ⟨-, hs⟩ := delPriv_nonblank hs hp
          rcases I.erased z hz he ke p hs hp with h | ⟨h, -⟩
          · rw [g3] at h
            exact .inr ⟨rfl, q, hq, Option.some.inj h⟩
          · rw [hvs] at h; cases h
        refine (run_bind_of_ok (a := ()) (s1 := B2) _ ?_).trans (hfin _ _)
        rw [run_ask_ok]
        rfl
      · rw [if_neg hj1, if_neg (by
          rintro ⟨e, -⟩
          rw [h5] at e
          exact hold hj1 _ g3 e)]
        exact ⟨ss, _, hfin _ _, by rw [hstates]; exact hst, I.del _ (hold hj1)⟩

omit hP in
theorem fset_id {α : Type} (f : Nat → α) (j : Nat) : fset f j (f j) = f := by
  funext x
  unfold fset
  split
  · rename_i e; rw [e]
  · rfl

/-- One attempt to open a message of a stored session, given what session handling does. -/
theorem dec_core {L : Link} {uid : UID} (hL : L.OK P uid) {r : Round} (hr : r.OK P uid)
    (hc : r.content.length ≤ maxContentLength) {B B1 : MemStore} {i k m : Nat} {o : List Nat} {q : Sn}
    {t : Sess} (J : SInv P (L.flip.skey P q.a q.b) q.root (P.dhPub q.a) (P.dhPub q.b) (L.fix P) k o m B1 t)
    (hroot : q.root.length = 32) (hi : i < 2 ^ 62) (hsent : k < 2 ^ 62) {nx sn : Option Bytes}
    {h : Header} (H : Hdr P L q.flip i nx sn h) (hparse : P.parse (P.marshal h) = some h) {sb : State}
    (hown : (keyHash P q.a = sb.senderSessionPub.hash ∧ sb.senderSessionPub.pub32 P = some (P.dhPub q.a)) ∨
      (keyHash P q.a ≠ sb.senderSessionPub.hash ∧ Own P B1 (keyHash P q.a) (P.dhPub q.a))) (fresh : Bytes)
    (hs : (decSession P ⟨[L.bob], (newPre (P.dhPub r.rnd.headerPriv)).write,
        (newOuter Wire.encryptedHeader 1 (r.rnd.nonce ++ be16 7168 ++
          P.boxSeal (P.marshal h) r.rnd.nonce (P.dhPub L.bPriv) r.rnd.headerPriv)).write true ++
          encBody P (senderKey P q.root (P.dhPub q.a) (L.fix P) i) r.rnd r.sigKey r.content,
        L.nB, fresh⟩ (effKeys L.nB) (P.dhPub r.rnd.headerPriv) L.bob h).run
          (MemStore.handle P) B = (.ok (some sb), B1)) :
    ∃ B', Frame (L.flip.skey P q.a q.b) B1 B' ∧
      ((i ∉ o ∧ openStep P L fresh (wireOf P L r h q.flip i) B =
          (some (r.content, L.alice.identity, sigOf P r.sigKey r.content), B') ∧
        ∃ m' t', SInv P (L.flip.skey P q.a q.b) q.root (P.dhPub q.a) (P.dhPub q.b) (L.fix P) k (i :: o)
          m' B' t') ∨
      ((i ∈ o ∨ 301 < roundUp i (effKeys L.nB).toNat) ∧
        openStep P L fresh (wireOf P L r h q.flip i) B = (none, B') ∧
        ∃ m' t', SInv P (L.flip.skey P q.a q.b) q.root (P.dhPub q.a) (P.dhPub q.b) (L.fix P) k o
          m' B' t')) := by
  have h5 : h.recipientTempHash = keyHash P q.a := H.temp
  have h3 : h.senderSessionPub = (initDHKey P q.b).public := H.sess
  have h4 := H.idp
  have h6 := H.count
  have hv := H.verify hP
  have hlen := H.len
  have hkey : decSessionKey P L.bob h = L.flip.skey P q.a q.b := by
    simp only [decSessionKey, hL.b, h3, h4, h5]; rfl
  have hfix : identityFix P h.senderIdentity L.bob.identity = L.fix P := by rw [H.ident]; rfl
  have hext := SInv.decExtend hP (effKeys_ne L.nB) (effKeys_lt hL.nB) (u := L.bob) (h := h) (ss := sb)
    hroot (sp := P.dhPub q.b) (rp := P.dhPub q.a) (by rw [h3]; exact initDHKey_public_pub32 P hP _)
    h5 (by rw [h3]; rfl) hi h6 hsent (by rw [h5]; exact hown)
    (by rw [hkey, hfix]; exact J)
  rw [hkey, hfix] at hext
  let key := L.flip.skey P q.a q.b
  let mk0 := senderKey P q.root (P.dhPub q.a) (L.fix P) i
  let tail : Prog (Str × Str) :=
    (decExtend P (effKeys L.nB) L.bob h key (some sb)).bind fun _ =>
      (Prog.ask (.getMsgKey key false h.senderMessageCount)).bind fun mk =>
        (decBody P mk h.senderUID (encBody P mk0 r.rnd r.sigKey r.content)).bind fun sig =>
          (Prog.ask (.delMsgKey key false h.senderMessageCount)).bind fun _ =>
            .ret (h.senderIdentity, sig)
  have hrun : (decrypt P ⟨[L.bob], (newPre (P.dhPub r.rnd.headerPriv)).write,
        (newOuter Wire.encryptedHeader 1 (r.rnd.nonce ++ be16 7168 ++
          P.boxSeal (P.marshal h) r.rnd.nonce (P.dhPub L.bPriv) r.rnd.headerPriv)).write true ++
          encBody P mk0 r.rnd r.sigKey r.content,
        L.nB, fresh⟩).run (MemStore.handle P) B = tail.run (MemStore.handle P) B1 := by
      have hhead : (decHead P ⟨[L.bob], (newPre (P.dhPub r.rnd.headerPriv)).write,
        (newOuter Wire.encryptedHeader 1 (r.rnd.nonce ++ be16 7168 ++
          P.boxSeal (P.marshal h) r.rnd.nonce (P.dhPub L.bPriv) r.rnd.headerPriv)).write true ++
          encBody P mk0 r.rnd r.sigKey r.content,
        L.nB, fresh⟩).run (MemStore.handle P) B =
          (.ok (P.dhPub r.rnd.headerPriv, L.bob, h, encBody P mk0 r.rnd r.sigKey r.content), B) := by
        rw [(noCall_decHead P _).run, decHead_message P hP r.rnd hr.rnd h hlen hparse hv L.bob L.bPriv
          hL.b _ _ _]
      unfold decrypt
      simp only [bind_eq]
      rw [run_bind_of_ok _ hhead]
      simp only
      rw [show (if L.nB = 0 then numOfFutureKeys else L.nB) = effKeys L.nB from rfl]
      rw [run_bind_of_ok _ hs, hkey]
  have hopen : openStep P L fresh (wireOf P L r h q.flip i) B =
      match tail.run (MemStore.handle P) B1 with
      | (.ok (sender, sig), B') => (some (B'.out.drop B.out.length, sender, sig), B')
      | (_, B') => (none, B') := by
    unfold openStep wireOf messageBytes
    rw [hP.unb64_b64]
    simp only
    rw [List.append_assoc, show Wire.preHeaderPacket = 1 from rfl,
      Wire.C04_first_roundtrip _ _ (by rw [hP.dhPub_len]; omega)]
    simp only
    rw [show senderKey P q.flip.root (P.dhPub q.flip.b) (L.fix P) i = mk0 from rfl, hrun]
    all_goals rfl
  have o1 : B1.out = B.out := by
    have o1 := run_out P (noWrite_decSession P ⟨[L.bob], (newPre (P.dhPub r.rnd.headerPriv)).write,
        (newOuter Wire.encryptedHeader 1 (r.rnd.nonce ++ be16 7168 ++
          P.boxSeal (P.marshal h) r.rnd.nonce (P.dhPub L.bPriv) r.rnd.headerPriv)).write true ++
          encBody P mk0 r.rnd r.sigKey r.content,
        L.nB, fresh⟩ (effKeys L.nB) (P.dhPub r.rnd.headerPriv) L.bob h) B
    rw [hs] at o1; exact o1
  rw [hopen]
  have hi64 : i < 2 ^ 64 := by omega
  rcases hext with ⟨m', B2, t2, e2, him, F2, J2⟩ | ⟨g1, g2, g3⟩
  · have htail : tail.run (MemStore.handle P) B1 =
        ((Prog.ask (.getMsgKey key false h.senderMessageCount)).bind fun mk =>
        (decBody P mk h.senderUID (encBody P mk0 r.rnd r.sigKey r.content)).bind fun sig =>
          (Prog.ask (.delMsgKey key false h.senderMessageCount)).bind fun _ =>
            .ret (h.senderIdentity, sig)).run (MemStore.handle P) B2 := run_bind_of_ok _ e2
    by_cases ho : i ∈ o
    · have htail := htail.trans (run_bind _ _ _ _)
      rw [run_ask, h6] at htail
      simp only [MemStore.handle, key, J2.usedKey hi64 ho] at htail
      exact ⟨B2, F2, .inr ⟨.inl ho, by rw [htail], m', t2, J2⟩⟩
    · rw [htail]
      obtain ⟨t3, e3, J3⟩ := (J2.moved (st' := B2.wrote r.content) rfl).delRecv him hi64
      let B3 := (B2.wrote r.content).setSess key t3
      have o2 : B2.out = B1.out := by
        have o2 := run_out P (noWrite_decExtend P (effKeys L.nB) L.bob h key (some sb)) B1
        rw [e2] at o2; exact o2
      rw [run_bind_of_ok (a := mk0) (s1 := B2) _
        (by rw [run_ask_ok, h6]; simp only [MemStore.handle]
            exact congrArg (·, B2) (J2.recvKey hP him hi64 ho))]
      rw [run_bind_of_ok _ (decBody_encBody P hP _ r.rnd hr.rnd r.sigKey r.content hc h.senderUID uid
        (by rw [H.uid]; exact hL.uid) hr.sig B2)]
      rw [run_bind_of_ok (a := ()) (s1 := B3) _ (by rw [run_ask_ok, h6]; exact e3)]
      refine ⟨B3, (F2.trans (Frame.wrote _ _ _)).trans (Frame.setSess _ _ _), .inl ⟨ho, ?_, m', t3, J3⟩⟩
      rw [H.ident]
      show (some ((B2.out ++ r.content).drop B.out.length, _, _), B3) = _
      rw [o2, o1, List.drop_left]
  · have htail : tail.run (MemStore.handle P) B1 = (.err .tooManyKeys, B1) := by
      show (Prog.bind _ _).run _ _ = _
      rw [run_bind, g3]
    exact ⟨B1, Frame.refl _ _, .inr ⟨.inr g2, by rw [htail], m, t, J⟩⟩

/-- One attempt to open, given what session handling does. -/
theorem dec_finish {L : Link} {uid : UID} (hL : L.OK P uid) {r : Round} (hr : r.OK P uid)
    (hc : r.content.length ≤ maxContentLength) {K : List Bytes} (hK : Keys P L.flip K) {G : List Sn}
    {v : View} {B B1 : MemStore} (I : PInv P L.flip K G v B1) {j i : Nat} {q : Sn} (hj : j < v.known)
    (hq : G[j]? = some q) (hi : i < 2 ^ 62) (hsent : v.sent j < 2 ^ 62) {nx sn : Option Bytes}
    {h : Header} (H : Hdr P L q.flip i nx sn h) (hparse : P.parse (P.marshal h) = some h) {sb : State}
    (hsb : B1.states (L.flip.stateKeyA P) = some sb) (fresh : Bytes)
    (hs : (decSession P ⟨[L.bob], (newPre (P.dhPub r.rnd.headerPriv)).write,
        (newOuter Wire.encryptedHeader 1 (r.rnd.nonce ++ be16 7168 ++
          P.boxSeal (P.marshal h) r.rnd.nonce (P.dhPub L.bPriv) r.rnd.headerPriv)).write true ++
          encBody P (senderKey P q.root (P.dhPub q.a) (L.fix P) i) r.rnd r.sigKey r.content,
        L.nB, fresh⟩ (effKeys L.nB) (P.dhPub r.rnd.headerPriv) L.bob h).run
          (MemStore.handle P) B = (.ok (some sb), B1)) :
    ∃ B', (i ∉ v.opened j ∧ openStep P L fresh (wireOf P L r h q.flip i) B =
          (some (r.content, L.alice.identity, sigOf P r.sigKey r.content), B') ∧
        PInv P L.flip K G { v with opened := fset v.opened j (i :: v.opened j) } B') ∨
      ((i ∈ v.opened j ∨ 301 < roundUp i (effKeys L.nB).toNat) ∧
        openStep P L fresh (wireOf P L r h q.flip i) B = (none, B') ∧ PInv P L.flip K G v B') := by
  obtain ⟨ss, s0, hs0, hst, hss⟩ := I.state
  rw [hsb] at hst; cases hst
  have hmq := List.mem_of_getElem? hq
  have hKq := I.mem q hmq
  have hK0 := I.mem s0 (List.mem_of_getElem? hs0)
  have hfl := fix_flip P L
  obtain ⟨m, t, J⟩ := I.sess j q hj hq
  rw [hfl] at J
  obtain ⟨B', F, ⟨g1, g2, g3⟩ | ⟨g1, g2, g3⟩⟩ := dec_core hP hL hr hc J (I.rlen q hmq) hi hsent H hparse
    (sb := sb) (by
      by_cases e : keyHash P q.a = sb.senderSessionPub.hash
      · refine .inl ⟨e, ?_⟩
        rw [hss.own] at e
        rw [hss.own, hK.inj _ hKq.1 _ hK0.1 e]
        exact initDHKey_pub32 P hP _
      · exact .inr ⟨e, I.own j q hj hq⟩) fresh hs
  · exact ⟨B', .inl ⟨g1, g2, I.update hK hj hq F (by rw [hfl]; exact g3)⟩⟩
  · refine ⟨B', .inr ⟨g1, g2, ?_⟩⟩
    have := I.update hK hj hq (o := v.opened j) F (by rw [hfl]; exact g3)
    rw [fset_id] at this
    exact this

/-- The first session, as the recipient of its messages sees it, and what is known after its first
message. -/
def startStep (P : Prims) (M : Link) (base : Str → Option Sess) (ex : List Bytes) (q : Sn) (fresh : Bytes) (nx : Option Bytes) : List Sn × View :=
  match nx with
  | none => ([q], { view0 base ex false with nx := some fresh })
  | some x => ([q] ++ [⟨fresh, x, nextRoot P M q.root ⟨fresh, x, [], true⟩, true⟩],
      { view0 base ex false with known := 2, nx := some fresh, sn := some x })

/-- Session handling for the message that arrives first. -/
theorem dec_first {L : Link} {uid : UID} (hL : L.OK P uid) {uid' : UID} (hL' : L.flip.OK P uid')
    {K : List Bytes} (hK : Keys P L.flip K) {B : MemStore} {ex : List Bytes}
    (hst : ∀ ss, B.states (L.stateKeyB P) = some ss →
      ss.keyInitSession = true ∧ L.alice.identity < L.bob.identity)
    (hse : ∀ y ∈ K, y ∉ ex → ∀ x ∈ K, B.sessions (L.flip.skey P y x) = none)
    (hpriv : B.privs (keyHash P L.kPriv) = some (initDHKey P L.kPriv))
    (hpr : ∀ x ∈ K, ∀ ke, B.privs (keyHash P x) = some ke → ke = initDHKey P x)
    (hsk : ∀ x ∈ K, x ∉ ex → ∀ ke p, B.skeys (keyHash P x) = some (ke, p) → p = [])
    {s : Bytes} {i : Nat} {nx sn : Option Bytes} {h : Header} (H : Hdr P L (firstSn P L s) i nx sn h)
    (a : DecArgs) {hp : Bytes} (hpK : hp ∈ K) (hkK : L.kPriv ∈ K) (hke : L.kPriv ∉ ex) (hsK : s ∈ K)
    (hfK : a.fresh ∈ K) (hfe : a.fresh ∉ ex)
    (hkf : L.kPriv ≠ a.fresh) (hnxK : ∀ x, nx = some x → x ∈ K ∧ [hp, L.bPriv, a.fresh, L.aPriv, x].Nodup)
    (hd : [hp, L.aPriv, s, L.bPriv, L.kPriv].Nodup) :
    ∃ sb B1, (decSession P a (effKeys L.nB) (P.dhPub hp) L.bob h).run (MemStore.handle P) B =
        (.ok (some sb), B1) ∧ B1.states (L.flip.stateKeyA P) = some sb ∧
      PInv P L.flip K (startStep P L.flip B.sessions ex (firstSn P L s).flip a.fresh nx).1
        (startStep P L.flip B.sessions ex (firstSn P L s).flip a.fresh nx).2 B1 := by
  have h3 : h.senderSessionPub = (initDHKey P s).public := H.sess
  have h4 := H.idp
  have h5 : h.recipientTempHash = keyHash P L.kPriv := H.temp
  have hkey : decSessionKey P L.bob h = L.flip.skey P L.kPriv s := by
    simp only [decSessionKey, hL.b, h3, h4, h5]; rfl
  have hfix : identityFix P h.senderIdentity L.bob.identity = L.fix P := by rw [H.ident]; rfl
  have hfl := fix_flip P L
  generalize hq : (firstSn P L s).flip = q
  have hqa : q.a = L.kPriv := by rw [← hq]; rfl
  have hqb : q.b = s := by rw [← hq]; rfl
  have hqr : q.root = deriveRootKey P (P.dh L.aPriv (P.dhPub L.kPriv)) (P.dh s (P.dhPub L.kPriv))
      (P.dh s (P.dhPub L.bPriv)) none := by rw [← hq]; rfl
  obtain ⟨t, ft, rt⟩ := run_generate_new P h.senderIdentity L.bob.identity
    (initDHKey P L.aPriv).public.hash (initDHKey P L.bPriv).hash
    q.root true (P.dhPub s) (P.dhPub L.kPriv) (effKeys L.nB)
    (effKeys_ne _) B (hse _ hkK hke _ hsK)
  rw [show genKey P (initDHKey P L.aPriv).public.hash (initDHKey P L.bPriv).hash true (P.dhPub s)
      (P.dhPub L.kPriv) = L.flip.skey P L.kPriv s from rfl] at rt
  rw [hfix, ← hfl] at ft
  -- the store with the first session and a state without next keys
  let sb0 : State := ⟨0, 0, 0, (initDHKey P s).public, initDHKey P L.kPriv, none, none, h.nymAddress,
    false⟩
  let B0 : MemStore := { B with
    sessions := upd B.sessions (L.flip.skey P L.kPriv s) (some t)
    states := upd B.states (L.flip.stateKeyA P) (some sb0) }
  have one : ∀ (j : Nat) (s' : Sn), [q][j]? = some s' → j = 0 ∧ s' = q := by
    intro j s' h
    cases j with
    | zero => exact ⟨rfl, (Option.some.inj h).symm⟩
    | succ j => cases h
  have I0 : PInv P L.flip K [q] (view0 B.sessions ex false) B0 := by
    refine ⟨⟨rfl, Nat.le_refl _, ⟨sb0, q, rfl, upd_same _ _ _, ⟨by rw [hqa], by rw [hqb], rfl, rfl, rfl, rfl⟩⟩,
      ?_, ?_, ?_, ?_, ?_, hpr, ?_, ?_, ?_, ?_, ?_, fun _ _ => rfl, fun _ _ => rfl, fun y hy => (nomatch hy), ?_, hse⟩,
      fun x hx he ke p hs hp => absurd (hsk x hx he ke p hs) hp⟩
    · intro j s' _ h
      obtain ⟨rfl, rfl⟩ := one j s' h
      rw [hqa, hqb]
      exact ⟨_, t, sinv_new (effKeys_ne _) (effKeys_lt hL.nB) (upd_same _ _ _) ft⟩
    · intro s' h
      rw [List.mem_singleton] at h; subst h
      rw [hqr]
      exact deriveRootKey_len P hP _ _ _ _
    · intro key h
      exact upd_other _ _ (by have := h 0 q Nat.zero_lt_one rfl; rw [hqa, hqb] at this; exact this)
    · intro j s' _ h
      obtain ⟨rfl, rfl⟩ := one j s' h
      rw [hqa]
      exact .inl ⟨_, hpriv, initDHKey_pub32 P hP _⟩
    · intro y hy; cases hy
    · intro s' h
      rw [List.mem_singleton] at h; subst h
      rw [hqa, hqb]
      exact ⟨hkK, hsK⟩
    · intro j j' s1 s2 h h' _
      rw [(one j s1 h).1, (one j' s2 h').1]
    · intro y hy; cases hy
    · intro y hy; cases hy
    · intro j s1 s2 _ h'
      exact absurd (one _ _ h').1 (by omega)
    · intro s' h
      rw [List.mem_singleton] at h; subst h
      rw [hqa]; exact hke
  have hd1 := hK.diff [hp, L.aPriv, s, L.bPriv, L.kPriv] (by
    intro z hz
    simp only [List.mem_cons, List.not_mem_nil, or_false] at hz
    rcases hz with rfl | rfl | rfl | rfl | rfl
    · exact hpK
    · exact hK.b
    · exact hsK
    · exact hK.a
    · exact hkK) hd
  have hnotin : ∀ s' ∈ [q], s'.a ≠ a.fresh := by
    intro s' h
    rw [List.mem_singleton] at h; subst h
    rw [hqa]; exact hkf
  unfold decSession
  simp only [bind_eq, hL.b, h4, initDHKey_pub32 P hP, initDHKey_public_pub32 P hP, orPanic, ret_bind]
  rw [show calcStateKey P (P.dhPub L.bPriv) (P.dhPub L.aPriv) = L.flip.stateKeyA P from rfl]
  rw [run_bind_of_ok (a := B.states (L.stateKeyB P)) (s1 := B) _ (by rw [run_ask_ok]; rfl)]
  rw [run_bind_of_ok (a := false) (s1 := B) _ (by
    rw [run_try', hkey]; simp only [MemStore.handle, MemStore.hasSession, hse _ hkK hke _ hsK,
      Option.isSome_none])]
  rw [if_neg (by simp)]
  unfold decUnknown
  simp only [bind_eq]
  rw [run_bind_of_ok (a := .ok (initDHKey P L.kPriv)) (s1 := B) _ (by
    rw [run_try', h5]; simp only [MemStore.handle, MemStore.getPrivateKeyEntry, hpriv])]
  simp only [if_true, hL.b]
  rw [h4, h3, rkaRecipient_eq P hP _ _ _ s L.aPriv L.kPriv L.bPriv _ _ (initDHKey_public_pub32 P hP _)
    (initDHKey_public_pub32 P hP _) none _ hd1, ← hqr]
  rw [run_bind_of_ok _ rt]
  simp only [addSessionKey, bind_eq, initDHKey_priv32, orPanic, ret_bind]
  rw [if_pos (c := (_ : Bool) = true)]
  rotate_left
  · cases hs : B.states (L.stateKeyB P) with
    | none => rfl
    | some ss =>
      obtain ⟨g1, g2⟩ := hst ss hs
      simp only [g1, H.ident, g2, decide_true, Bool.and_self]
  let B2 := (MemStore.handle P (.addSKey (initDHKey P a.fresh).hash (initDHKey P a.fresh).public
    (P.b64 a.fresh)) (B.setSess (L.flip.skey P L.kPriv s) t)).2
  cases nx with
  | none =>
    simp only [H.next, Option.map_none]
    let sb : State := { sb0 with nextSenderSessionPub := some (initDHKey P a.fresh) }
    have I1 := I0.draw hP hK rfl hfK hfe hnotin (upd_same _ _ _)
    refine ⟨sb, (MemStore.handle P (.setState (L.flip.stateKeyA P) sb) B2).2, ?_, upd_same _ _ _, ?_⟩
    · rw [run_bind_of_ok (a := ()) (s1 := B2) _ (by rw [run_ask_ok]; rfl)]
      rw [run_bind_of_ok (a := ()) _ (by rw [run_ask_ok]; rfl)]
      rfl
    · have e : (MemStore.handle P (.setState (L.flip.stateKeyA P) sb) B2).2 = { B0 with
          skeys := upd B0.skeys (keyHash P a.fresh) (some ((initDHKey P a.fresh).public, P.b64 a.fresh))
          states := upd B0.states (L.flip.stateKeyA P) (some sb) } := by
        simp only [B0, upd_upd]; rfl
      rw [e]
      exact I1
  | some x =>
    simp only [H.next, Option.map_some]
    obtain ⟨hxK, hnd⟩ := hnxK x rfl
    let sb : State := { sb0 with nextSenderSessionPub := some (initDHKey P a.fresh)
                                 nextRecipientSessionPubSeen := some (initDHKey P x).public }
    have hno : B2.sessions (L.flip.skey P a.fresh x) = none := by
      show upd B.sessions _ _ _ = none
      rw [upd_other, hse _ hfK hfe _ hxK]
      intro e
      exact hkf (hK.skey _ hfK _ hxK _ hkK _ hsK e).1.symm
    obtain ⟨t', ft', rt'⟩ := run_generate_new P L.bob.identity h.senderIdentity
      (initDHKey P L.bPriv).hash (initDHKey P L.aPriv).public.hash
      (nextRoot P L.flip q.root ⟨a.fresh, x, [], true⟩) false (P.dhPub a.fresh) (P.dhPub x)
      (effKeys L.nB) (effKeys_ne _) B2 (by exact hno)
    rw [show genKey P (initDHKey P L.bPriv).hash (initDHKey P L.aPriv).public.hash false
      (P.dhPub a.fresh) (P.dhPub x) = L.flip.skey P a.fresh x from rfl] at rt'
    rw [H.ident] at ft'
    have hd2 := hK.diff [hp, L.bPriv, a.fresh, L.aPriv, x] (by
      intro z hz
      simp only [List.mem_cons, List.not_mem_nil, or_false] at hz
      rcases hz with rfl | rfl | rfl | rfl | rfl
      · exact hpK
      · exact hK.a
      · exact hfK
      · exact hK.b
      · exact hxK) hnd
    have I1 := I0.toPCore.prepare hP hL' hK rfl rfl hxK hfK hfe hnotin (s := q) rfl (upd_same _ _ _) ft' (s2 := sb)
      ⟨by show initDHKey P L.kPriv = _; rw [hqa], by show (initDHKey P s).public = _; rw [hqb], rfl, rfl, rfl, rfl⟩
    have hrh : B2.getRootKeyHash P (L.flip.skey P L.kPriv s) = .ok (P.sha512 q.root) := by
      obtain ⟨m, t1, J⟩ := I0.sess 0 q Nat.zero_lt_one rfl
      rw [hqa, hqb] at J
      exact (J.moved (st' := B2) rfl).rootKeyHash hP
    refine ⟨sb, (MemStore.handle P (.setState (L.flip.stateKeyA P) sb) (B2.setSess
      (L.flip.skey P a.fresh x) t')).2, ?_, upd_same _ _ _, ?_⟩
    · rw [run_bind_of_ok (a := ()) (s1 := B2) _ (by rw [run_ask_ok]; rfl)]
      rw [hkey, run_bind_of_ok (a := P.sha512 q.root) (s1 := B2) _ (by
        rw [run_ask_ok]; simp only [MemStore.handle, hrh])]
      rw [rkaSender_eq P hP _ _ _ a.fresh L.bPriv x L.aPriv _ _ (initDHKey_public_pub32 P hP _)
        (initDHKey_public_pub32 P hP _) _ _ hd2]
      refine (run_bind_of_ok _ rt').trans ?_
      rw [run_bind_of_ok (a := ()) _ (by rw [run_ask_ok]; rfl)]
      rfl
    · have e : (MemStore.handle P (.setState (L.flip.stateKeyA P) sb) (B2.setSess
          (L.flip.skey P a.fresh x) t')).2 = { B0 with
          skeys := upd B0.skeys (keyHash P a.fresh) (some ((initDHKey P a.fresh).public, P.b64 a.fresh))
          states := upd B0.states (L.flip.stateKeyA P) (some sb)
          sessions := upd B0.sessions (L.flip.skey P a.fresh x) (some t') } := by
        simp only [B0, upd_upd]; rfl
      rw [e]
      refine ⟨I1, fun z hz he ke p hs hp => ?_⟩
      by_cases e : keyHash P z = keyHash P a.fresh
      · exact .inl (by rw [hK.inj _ hz _ hfK e]; rfl)
      · have hs : upd B.skeys (keyHash P a.fresh) _ (keyHash P z) = some (ke, p) := hs
        rw [upd_other _ _ e] at hs
        exact absurd (hsk z hz he ke p hs) hp

end
end Two
end Verif.Msg

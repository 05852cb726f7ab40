import Verif.Keydb.AnyOrder
import Verif.Ctrl.Journey
/-
C144, continued: the whole way of a batch of messages (C143) when the sessions of both users are in
their key databases and every message is encrypted and decrypted by a process of its own.
-/
set_option autoImplicit false
namespace Verif.Ctrl.Journey
open Verif.Sql Verif.Msgdb Verif.Ctrl.Mailbox Verif.Ctrl.CryptRun
open Verif.Msg (Link Round UID MemStore Str encrypt decrypt sendAll)
open Verif.Keydb (Store dbEncrypt dbSendAll AllOpen AllSent BothOpen Begin Drawn handed)
open Verif.Ctrl.Deliver (World)
open Verif.Mix (MAddr KeyFunc)

variable {I : Ids}

/-! ### the programs with sessions in the key database -/

/-- `CryptEngine.decrypt` (cryptengine/decrypt.go:40-87) called by `mutecrypt decrypt`, a process
that opens the key database: its writes, whether it exits with status 0, and the database afterwards. -/
def dbDecryptRun (P : Msg.Prims) (T : Texts) (ids : List UID) (num : UInt64) (fresh enc : Bytes) (st : Store) : (List CryptRun.Ev × Bool) × Store :=
  match P.unb64 enc with
  | none => (([fatal T.base64], false), st)
  | some b =>
    match Wire.readFirst b with
    | .err e => (([fatal (T.first e)], false), st)
    | .panic => (([.err (txtPanic ++ T.trace)], false), st)
    | .ok (v, pre, rest) =>
      if v ≠ Wire.version then (([fatal T.version], false), st)
      else
        let r := (decrypt P ⟨ids, pre, rest, num, fresh⟩).run (Store.handle P) st.connect
        let w := CryptRun.Ev.out (r.2.out.drop st.out.length)
        match r.1 with
        | .err e => (([w, fatal (T.decrypt e)], false), r.2)
        | .panic => (([w, .err (txtPanic ++ T.trace)], false), r.2)
        | .ok (sender, sig) =>
          ((w :: .err (txtSender ++ 9 :: sender ++ [10]) :: (if sig = [] then [] else [.err (txtSignature ++ sig ++ [10])]), true), r.2)

/-- `CryptEngine.encrypt` (cryptengine/encrypt.go:20-81) called by `mutecrypt encrypt`, from the call
of `msg.Encrypt` on (line 72). -/
def dbEncryptRun (P : Msg.Prims) (T : Texts) (L : Link) (r : Round) (st : Store) : (List CryptRun.Ev × Bool) × Store :=
  let x := dbEncrypt P L r st
  let w := CryptRun.Ev.out (x.2.out.drop st.out.length)
  match x.1 with
  | .err e => (([w, fatal (T.decrypt e)], false), x.2)
  | .panic => (([w, .err (txtPanic ++ T.trace)], false), x.2)
  | .ok nym => (([w, .err (txtNym ++ 9 :: nym ++ [10])], true), x.2)

/-- `mutecrypt decrypt` as the engine calls it (msg.go:649-713). -/
def dbOpener (P : Msg.Prims) (T : Texts) (L : Link) : Opener Store := fun fresh enc st =>
  let x := dbDecryptRun P T [L.bob] L.nB fresh enc st
  (hearDecrypt (stdout x.1.1) (stderr x.1.1) x.1.2, x.2)

/-- `mutecrypt encrypt` as the engine calls it (msg.go:55-105). -/
def dbSender (P : Msg.Prims) (T : Texts) (L : Link) : Sender Store := fun r st =>
  let x := dbEncryptRun P T L r st
  (hearEncrypt (stdout x.1.1) (stderr x.1.1) x.1.2, x.2)

theorem dbOpener_step {P : Msg.Prims} (T : Texts) {L : Link} {fresh enc : Bytes} {B B' : MemStore} {SB SB' : Store} {x : Bytes × Str × Str}
    (h : BothOpen P L fresh enc x B B' SB SB') (hs : CryptRun.Plain x.2.1) : dbOpener P T L fresh enc SB = (.decrypted x.2.1 x.1, SB') := by
  obtain ⟨c, sender, sig⟩ := x
  obtain ⟨b, pre, rest, h1, h2, h3, h4, h5, h6⟩ := h
  simp only at h3 h4 h5 h6 hs
  obtain ⟨content, g1, g2⟩ := C122_exact P T [L.bob] L.nB fresh enc b pre rest B B' sender sig h1 h2 h3 hs
  rw [g1, List.drop_left] at h5
  have hrun : dbDecryptRun P T [L.bob] L.nB fresh enc SB = (decryptRun P T [L.bob] L.nB fresh enc B, SB') := by
    unfold dbDecryptRun decryptRun
    rw [h1]
    simp only
    rw [h2]
    simp only
    rw [if_neg (by decide), if_neg (by decide), h3, h4]
    simp only [h6, g1, List.drop_left, h5]
  unfold dbOpener
  rw [hrun]
  simp only
  rw [g2, h5]

theorem heard_db {P : Msg.Prims} (T : Texts) {L : Link} (xs : Nat → Bytes × Bool) (ms : List Bytes) (ys : List (Bytes × Str × Str)) (B : MemStore) (SB : Store)
    (hs : ∀ y ∈ ys, CryptRun.Plain y.2.1) (h : AllOpen P L (ms.mapIdx fun j m => ((xs j).1, m)) ys B SB) :
    ∃ SB', Heard (dbOpener P T L) xs ms SB (ys.map fun y => (y.2.1, y.1)) SB' := by
  induction ms generalizing xs B SB ys with
  | nil =>
    rw [List.mapIdx_nil] at h
    cases h
    exact ⟨SB, .nil _ _⟩
  | cons m ms ih =>
    rw [List.mapIdx_cons] at h
    cases h with
    | cons h t =>
      have h4 := dbOpener_step T h (hs _ List.mem_cons_self)
      obtain ⟨SB', g⟩ := ih (fun j => xs (j + 1)) _ _ _ (fun y hy => hs y (.tail _ hy)) t
      refine ⟨SB', .cons xs m ms SB SB' _ _ ?_ ?_⟩
      · rw [h4]
      · rw [h4]; exact g

/-- The engine of the sender gets what `Encrypt` wrote, with the nym address of the recipient. -/
theorem sendRun_db {P : Msg.Prims} (hP : P.Good) (T : Texts) {L : Link} {uid : UID} (hL : L.OK P uid) (rs : List Round) (hrs : ∀ r ∈ rs, r.OK P uid)
    (A : MemStore) (SA : Store) (hn : CryptRun.PlainNym (nymOf P L A)) (ws : List Str) (h : AllSent P L rs ws A SA) :
    ∃ SA', sendRun (dbSender P T L) rs SA = some (ws.map fun w => (w, nymOf P L A), SA') := by
  induction h with
  | nil A SA => exact ⟨SA, rfl⟩
  | @cons r rs w nym ws A A' SA SA1 mem db out t ih =>
    obtain ⟨g1, g2⟩ := encrypt_nym hP hL (hrs _ (by simp)) mem
    obtain ⟨SA', g⟩ := ih (fun r hr => hrs r (by simp [hr])) (by rw [g2]; exact hn)
    have hS : dbSender P T L r SA = (some (w, nym), SA1) := by
      have hE : dbEncryptRun P T L r SA = (([.out w, .err (txtNym ++ 9 :: nym ++ [10])], true), SA1) := by
        unfold dbEncryptRun
        rw [db]
        simp only [out]
      unfold dbSender
      rw [hE]
      simp only [stdout, stderr, List.append_nil]
      rw [hearEncrypt_plain _ (by rw [g1]; exact hn)]
    refine ⟨SA', ?_⟩
    unfold sendRun
    simp only [hS, g, List.map_cons, g1, g2]

/-- **C144** The whole way of a batch of messages, as C143, but with the sessions of both users in
their key databases: two users with new key databases, where the sender has the KeyInit message of
the recipient with a nym address of the account. The sender encrypts a batch of messages, each in a
process of its own. If mails with some of them are read by a mix before the address expires and what
the mix sends on reaches the mailbox, then, in whatever order it did, the next fetch and the
processing of the in-queue, with a process for every message, put into the message database exactly
the messages the sender wrote, each once, with the sender's name and the time of arrival; if the
sender is on the black list, nothing is stored. Missing: messages beyond the first batch of keys,
which are lost (`C141_sender_stuck_violated`), and interruptions. -/
theorem C144_arrives_partial {P : Msg.Prims} (hP : P.Good) (hb64 : ∀ b, P.b64 b = Base64.encode b) (T : Texts)
    (hparse : ∀ h : Msg.Header, h.Clean → (P.marshal h).length = 7152 → P.parse (P.marshal h) = some h)
    (L : Link) (uid : UID) (hL : L.OK P uid) (rs : List Round) (hrs : ∀ r ∈ rs, r.OK P uid) (hfit : ∀ r ∈ rs, r.Fits P L) (hd : Msg.FirstDifferent P L rs)
    (hx : Drawn P rs) (hkA : rs.length ≤ (Msg.effKeys L.nA).toNat) (SA SB : Store) (hS : Begin P L SA SB)
    (W : World) (hW : W.P.Good) (hI : I.map [] ≠ some [])
    (my c : Bytes) (ops : List Op) (box seen : List Mail) (hist : History I my c ops box seen) (hops : ∀ op ∈ ops, ValidType op)
    (hempty : (Db.new.run I ops).inQueue = []) (u v : Nat) (hpair : (Db.new.run I ops).pair I my c = .ok (u, v))
    (a : Account) (ha : (Db.new.run I ops).getAccount I my c = .ok a) (cache : List Bytes) (hcache : (Db.new.run I ops).getCache I my c = .ok cache)
    (l : List Mail) (hl : Listed box a.lastMsgTime l)
    (mixes : List MAddr) (p : Params) (hp : (p.template []).Fits) (hsec : p.secret = a.secret) (c0 : Int) (r0 : Nat) (e0 n0 ma : Bytes) (hn0 : n0.length = 32)
    (hnew : newNymAddress W.P c0 true true (some mixes) p my (a.privkey.drop 32) a.server r0 e0 n0 = .ok (ma, SA.nyms L.bob.identity))
    (look : KeyFunc) (hlook : ∀ m ∈ mixes, ∃ k, m.pubkey = W.P.pub k ∧ look (W.P.pub k) = some k)
    (hplain : CryptRun.Plain L.alice.identity) (h0 : L.alice.identity ≠ []) (hmap : I.isMapped L.alice.identity = true)
    (xs : Nat → Bytes × Bool)
    (hknown : (first (isContact u L.alice.identity) (Db.new.run I ops).contacts).isSome = true ∨ ∀ j, (xs j).2 = true) :
    ∃ ms SA', sendRun (dbSender P T L) rs SA = some (ms, SA') ∧ ms.length = rs.length ∧
      ∀ arr : List (Nat × Trip × Mail), box = arr.map (·.2.2) ++ seen → (arr.map (·.1)).Nodup →
        (∀ x ∈ arr, x.1 < (Msg.effKeys L.nB).toNat) →
        (∀ x ∈ arr.head?, (xs 0).1 ≠ [] ∧ ∀ r ∈ rs[x.1]?, Msg.Apart P L rs r (xs 0).1) →
        (∀ x ∈ arr, ∃ m to, ms[x.1]? = some m ∧ x.2.1.Fine p m.2 ∧ Travels W look m.2 m.1 x.2.1 x.2.2.text to) →
        ∃ db' SB', (∀ n, liveRun W.P (dbOpener P T L) I (n + (2 * arr.length + 1)) xs (Db.new.run I (ops ++ fetchRun my c cache l)) SB = some (db', SB', true)) ∧
          db'.inQueue = [] ∧
          inbox db'.messages = inbox (Db.new.run I ops).messages ++
            (if blackListed (Db.new.run I ops) u L.alice.identity then []
             else arr.map fun x => ⟨u, L.alice.identity, x.2.2.time, (rs[x.1]?.map (·.content)).getD []⟩) ∧
          (vals db'.messages).filter (·.outgoing) = (vals (Db.new.run I ops).messages).filter (·.outgoing) := by
  have nA := Msg.effKeys_lt hL.nA
  have hk : rs.length < 2 ^ 63 := by omega
  obtain ⟨ws, A', hsend⟩ := Msg.sendAll_succeeds hP hL rs hrs hfit hd hk SA.mem SB.mem hS.start
  obtain ⟨hlen, hsent⟩ := Msg.sendAll_sent hP hL rs hrs hd hk SA.mem SB.mem A' hS.start ws hsend
  have hall := Keydb.dbSend_sent hP hL rs hrs hd hx hkA SA SB hS A' ws hsend
  have hnym : nymOf P L SA.mem = SA.nyms L.bob.identity := by unfold nymOf; rw [hS.start.stA]; rfl
  have hpn : CryptRun.PlainNym (nymOf P L SA.mem) := by
    obtain ⟨_, _, _, _, b, ad, _, _, _, h4, _, h6⟩ := newNymAddress_ok W.P c0 true true (some mixes) p my _ _ r0 e0 n0 ma _ hnew
    rw [hnym, h6]
    refine plainNym_encode fun hb => ?_
    rw [hb] at h4
    cases h4
  obtain ⟨SA', hrun⟩ := sendRun_db hP T hL rs hrs SA.mem SA hpn ws hall
  refine ⟨_, SA', hrun, by simp [hlen], ?_⟩
  intro arr hbox hnd hnear hfirst htr
  have hin : ∀ x ∈ arr, x.1 < rs.length := by
    intro x hx
    obtain ⟨m, to, h1, -, -⟩ := htr x hx
    have := (List.getElem?_eq_some_iff.mp h1).1
    simpa [hlen] using this
  have hopen := Keydb.all_open hP hL hparse hrs hsent hS (arr.mapIdx fun j x => (x.1, (xs j).1))
    (by intro y hy; obtain ⟨j, hj, rfl⟩ := List.mem_mapIdx.mp hy; exact hin _ (List.getElem_mem hj))
    (by rw [map_mapIdx' arr (fun j x => (x.1, (xs j).1)) (fun x => x.1) (·.1) (fun _ _ => rfl)]; exact hnd)
    (by intro y hy; obtain ⟨j, hj, rfl⟩ := List.mem_mapIdx.mp hy; exact hnear _ (List.getElem_mem hj))
    (by
      intro y hy
      cases arr with
      | nil => simp at hy
      | cons x arr =>
        simp only [List.mapIdx_cons, List.head?_cons, Option.mem_some_iff] at hy
        subst hy
        exact hfirst x (by simp))
  rw [map_mapIdx' arr (fun j x => (x.1, (xs j).1)) (fun x => handed P L rs x.1) (fun x => handed P L rs x.1) (fun _ _ => rfl)] at hopen
  obtain ⟨SB', hheard⟩ := heard_db (P := P) T (L := L) xs (arr.map fun x => ws.getD x.1 []) (arr.map fun x => handed P L rs x.1) SB.mem SB
    (by
      intro y hy
      obtain ⟨x, hx, rfl⟩ := List.mem_map.mp hy
      simp only [handed, List.getElem?_eq_getElem (hin x hx)]
      exact hplain)
    (by
      rw [mapIdx_map']
      have : (arr.mapIdx fun j x => ((xs j).1, ws.getD x.1 [])) = (arr.mapIdx fun j x => (x.1, (xs j).1)).map fun x => (x.2, ws.getD x.1 []) := by
        apply List.ext_getElem?
        intro i
        simp only [List.getElem?_map, List.getElem?_mapIdx, Option.map_map]
        rfl
      rw [this]
      exact hopen)
  have hox : ∀ x ∈ arr, openEnvelope W.P my (a.privkey.drop 32) a.server a.secret x.2.2.text = .ok (.opened (ws.getD x.1 [])) :=
    fun x hx => sent_opens hP hb64 hrs hlen hsent hW hp hsec hn0 hnew hlook hnym (htr x hx)
  obtain ⟨db', h⟩ := stored_all (I := I) W.P (dbOpener P T L) hI hist hops hempty hpair ha hcache hl arr (·.2.2) (fun x => ws.getD x.1 []) hbox hox h0 hmap hknown
    (fun x => (rs[x.1]?.map (·.content)).getD []) (s := SB) (s' := SB') (by
      have hys : (arr.map fun x => handed P L rs x.1).map (fun y => (y.2.1, y.1)) =
          arr.map fun x => (L.alice.identity, (rs[x.1]?.map (·.content)).getD []) := by
        rw [List.map_map]
        refine List.map_congr_left fun x hx => ?_
        simp only [Function.comp_apply, handed, List.getElem?_eq_getElem (hin x hx), Option.map_some, Option.getD_some]
      rw [hys] at hheard
      exact hheard)
  exact ⟨db', SB', h⟩

end Verif.Ctrl.Journey

import Verif.Ctrl.Journey
/-
C143: what happens to messages whose keys cannot be made. The first one in the in-queue stops its
processing (ctrlengine/msg.go:715-801), now and whenever it is tried again, whatever is fetched in
the meantime.
-/
set_option autoImplicit false
namespace Verif.Ctrl.Journey
open Verif.Sql Verif.Msgdb Verif.Ctrl.Mailbox Verif.Ctrl.CryptRun
open Verif.Msg (Link Round UID MemStore Str encrypt decrypt sendAll openStep openAll)
open Verif.Ctrl.Deliver (World)
open Verif.Mix (MAddr KeyFunc)

variable {σ : Type} {I : Ids}

/-- A write to the database made by a fetch, for any nym and contact (msg.go:478-645). -/
def FetchOp (op : Op) : Prop :=
  ∃ my c, (∃ x, op = .addCache my c x) ∨ (∃ x, op = .removeCache my c x) ∨ (∃ t x, op = .addInQueue my c t x) ∨ ∃ t, op = .setAccountLastMsg my c t

/-- Calls of `msg fetch` (msg.go:803-845) one after the other: the writes of the fetch, then the
in-queue is processed. For each call whether the processing ended without an error. -/
def liveRounds (M : Mix.Prims) (O : Opener σ) (I : Ids) (n : Nat) : List (List Op × (Nat → Bytes × Bool)) → Db → σ → Option (Db × σ × List Bool)
  | [], db, s => some (db, s, [])
  | x :: l, db, s =>
    match liveRun M O I n x.2 (db.run I x.1) s with
    | none => none
    | some (db', s', ok) => (liveRounds M O I n l db' s').map fun y => (y.1, y.2.1, ok :: y.2.2)

/-! ### lemmas -/

theorem memOpener_refused {P : Msg.Prims} (T : Texts) {L : Link} {fresh enc : Bytes} {B B' : MemStore} {e : Msg.Err}
    (h : Msg.Refused P L fresh enc B e B') (hk : T.decrypt .noPreHeaderKey = txtNoKey)
    (ht : ∃ t c, T.decrypt e = t ++ [c] ∧ Transfer.isBlank c = false ∧ ¬ txtNoKey <:+ txtFatal ++ T.decrypt e) :
    memOpener P T L fresh enc B = (.failed, B') := by
  obtain ⟨b, pre, rest, hb, hf, hr⟩ := h
  unfold memOpener
  refine Prod.ext ?_ ?_
  · exact (C122_no_key P T [L.bob] L.nB fresh enc b pre rest B B' e hb hf hr hk).2 ht
  · show decryptStore P [L.bob] L.nB fresh enc B = _
    unfold decryptStore
    simp only [hb, hf]
    rw [if_neg (by decide), hr]

theorem fetchOp_step {db : Db} {op : Op} (h : FetchOp op) :
    (∃ t, (db.step I op).inQueue = db.inQueue ++ t) ∧ (db.step I op).messages = db.messages := by
  unfold Db.step
  cases he : db.apply I op with
  | error e => exact ⟨⟨[], by simp⟩, rfl⟩
  | ok d =>
    simp only
    obtain ⟨my, c, ⟨x, rfl⟩ | ⟨x, rfl⟩ | ⟨t, x, rfl⟩ | ⟨t, rfl⟩⟩ := h
    · simp only [Db.apply, Db.addCache] at he
      split at he
      · cases he
      split at he
      · cases he
      cases he
      exact ⟨⟨[], by simp⟩, rfl⟩
    · simp only [Db.apply, Db.removeCache] at he
      split at he
      · cases he
      split at he
      · cases he
      split at he
      · cases he
      cases he
      exact ⟨⟨[], by simp⟩, rfl⟩
    · simp only [Db.apply, Db.addInQueue] at he
      split at he
      · cases he
      cases he
      exact ⟨⟨_, rfl⟩, rfl⟩
    · simp only [Db.apply, Db.setAccountLastMsg] at he
      split at he
      · cases he
      cases he
      exact ⟨⟨[], by simp⟩, rfl⟩

theorem fetchOp_run {db : Db} (ops : List Op) (h : ∀ op ∈ ops, FetchOp op) :
    (∃ t, (db.run I ops).inQueue = db.inQueue ++ t) ∧ (db.run I ops).messages = db.messages := by
  induction ops generalizing db with
  | nil => exact ⟨⟨[], by simp [Db.run]⟩, rfl⟩
  | cons op ops ih =>
    obtain ⟨⟨t1, h1⟩, m1⟩ := fetchOp_step (I := I) (db := db) (h op (.head _))
    obtain ⟨⟨t2, h2⟩, m2⟩ := ih (db := db.step I op) (fun o ho => h o (.tail _ ho))
    exact ⟨⟨t1 ++ t2, h2.trans (by rw [h1, List.append_assoc])⟩, m2.trans m1⟩

/-- A row whose envelope was opened and whose message is refused ends the processing. -/
theorem live_refused (M : Mix.Prims) (O : Opener σ) (hI : I.map [] ≠ some []) {db : Db} (hw : WF I db) {i : Nat} {e : InEntry} {t : Table InEntry}
    (hq : db.inQueue = (i, e) :: t) (he : e.envelope = false) (s : σ) (xs : Nat → Bytes × Bool) (hm : (O (xs 0).1 e.msg s).1 = .failed) (n : Nat) :
    liveRun M O I (n + 1) xs db s = some (db, (O (xs 0).1 e.msg s).2, false) := by
  obtain ⟨q, n', k1, k2, k3, k4, k5, k6, k7, k8⟩ := getInQueue_cons hI hw hq
  have hm' := getInQueue_msg hw hq k1
  rw [liveRun]
  simp only [liveStep, k1, k5, he, Bool.false_eq_true, if_false, hm', hm, procMessage]

/-- A row whose envelope can be opened and whose message is refused ends the processing. -/
theorem live_refused_first (M : Mix.Prims) (O : Opener σ) (hI : I.map [] ≠ some []) {db : Db} (hw : WF I db)
    {i : Nat} {e : InEntry} {t : Table InEntry} (hq : db.inQueue = (i, e) :: t) (he : e.envelope = true) {my : Nym} (hn : (e.myID, my) ∈ db.nyms)
    {a : Nat × Account} (ha : first (isAccount e.myID e.contactID) db.accounts = some a) {m : Bytes}
    (ho : openEnvelope M my.mapped (a.2.privkey.drop 32) a.2.server a.2.secret e.msg = .ok (.opened m)) (s : σ) (xs : Nat → Bytes × Bool)
    (hm : (O (xs 0).1 m s).1 = .failed) (n : Nat) :
    liveRun M O I (n + 2) xs db s = some (db.setInQueue i m, (O (xs 0).1 m s).2, false) ∧ WF I (db.setInQueue i m) ∧
      (db.setInQueue i m).inQueue = (i, { e with msg := m, envelope := false }) :: t := by
  obtain ⟨q, n', h1, hi, h3, h4, h5, h6, h7, h8⟩ := getInQueue_cons hI hw hq
  subst hi
  have hsrt : Sorted ((q.iqIdx, e) :: t) := by rw [← hq]; exact hw.inQueue
  have hqm := getInQueue_msg hw hq h1
  have hnm : q.myID = my.mapped := by
    have g1 := byId_mem hw.nyms h3
    have g2 := byId_mem hw.nyms hn
    rw [g1] at g2
    rw [h4, Option.some.inj g2]
  have hga : db.getAccount I q.myID q.contactID = .ok a.2 := by
    simp only [Db.getAccount, h6, ha]
  have hrep : envelopeReply M I db q = .opened m := by
    unfold envelopeReply
    rw [hga]
    simp only [hqm, hnm, ho]
  have hq1 : (db.setInQueue q.iqIdx m).inQueue = (q.iqIdx, { e with msg := m, envelope := false }) :: t := by
    simp only [Db.setInQueue, hq]; exact updateId_head _ hsrt
  have s1 : liveStep M O I (xs 0) db s = (.next (db.setInQueue q.iqIdx m), s, 0) := by
    simp only [liveStep, h1, h5, he, if_true, hrep, procEnvelope, hga]
  have hw1 := wf_set hw q.iqIdx m
  refine ⟨?_, hw1, hq1⟩
  show liveRun M O I ((n + 1) + 1) xs db s = _
  rw [liveRun, s1]
  exact live_refused M O hI hw1 hq1 rfl s xs hm n

/-- A program that keeps refusing the message of the first row. -/
theorem rounds_refused (M : Mix.Prims) (O : Opener σ) (hI : I.map [] ≠ some []) (Q : σ → Prop) (m : Bytes)
    (hO : ∀ f s, Q s → (O f m s).1 = .failed ∧ Q (O f m s).2) (n : Nat) (l : List (List Op × (Nat → Bytes × Bool))) (hl : ∀ x ∈ l, ∀ op ∈ x.1, FetchOp op) :
    ∀ (db : Db) (s : σ) (i : Nat) (e : InEntry) (t : Table InEntry), WF I db → Q s → db.inQueue = (i, e) :: t → e.envelope = false → e.msg = m →
    ∃ db' s', liveRounds M O I (n + 1) l db s = some (db', s', l.map fun _ => false) ∧ db'.messages = db.messages ∧ db'.inQueue.head? = some (i, e) := by
  induction l with
  | nil => exact fun db s i e t _ _ hq _ _ => ⟨db, s, rfl, rfl, by rw [hq]; rfl⟩
  | cons x l ih =>
    intro db s i e t hw hs hq he hm
    obtain ⟨⟨t', h1⟩, h2⟩ := fetchOp_run (I := I) (db := db) x.1 (hl x (.head _))
    rw [hq, List.cons_append] at h1
    have hw' : WF I (db.run I x.1) := wf_run hw _
    obtain ⟨g1, g2⟩ := hO (x.2 0).1 s hs
    rw [← hm] at g1 g2
    obtain ⟨db', s', k1, k2, k3⟩ := ih (fun y hy => hl y (.tail _ hy)) (db.run I x.1) _ i e (t ++ t') hw' g2 h1 he hm
    refine ⟨db', s', ?_, k2.trans h2, k3⟩
    simp only [liveRounds, live_refused M O hI hw' h1 he s x.2 g1 n, k1, Option.map_some, List.map_cons]

/-- **C143** fails beyond the bound of `C143_arrives_partial`: if the first message found in the
mailbox (the newest one) is one whose keys cannot be made at once, then its processing fails, and
nothing that was fetched with it or is fetched later, for this account or any other one, ever
reaches the inbox: each further call of `msg fetch` stops at the same message again. (`hk` and
`ht`: the message of the error is not the one for a message without key, see C122.) -/
theorem C143_blocked_violated {P : Msg.Prims} (hP : P.Good) (hb64 : ∀ b, P.b64 b = Base64.encode b) (T : Texts) (hkey : T.decrypt .noPreHeaderKey = txtNoKey)
    (htext : ∃ t c, T.decrypt .tooManyKeys = t ++ [c] ∧ Transfer.isBlank c = false ∧ ¬ txtNoKey <:+ txtFatal ++ T.decrypt .tooManyKeys)
    (hparse : ∀ h : Msg.Header, h.Clean → (P.marshal h).length = 7152 → P.parse (P.marshal h) = some h)
    (L : Link) (uid : UID) (hL : L.OK P uid) (rs : List Round) (hrs : ∀ r ∈ rs, r.OK P uid) (hfit : ∀ r ∈ rs, r.Fits P L) (hd : Msg.FirstDifferent P L rs)
    (hk : rs.length < 2 ^ 63) (A B : MemStore) (hS : L.Start P A B)
    (W : World) (hW : W.P.Good) (hI : I.map [] ≠ some [])
    (my c : Bytes) (ops : List Op) (box seen : List Mail) (hist : History I my c ops box seen) (hops : ∀ op ∈ ops, ValidType op)
    (hempty : (Db.new.run I ops).inQueue = []) (u v : Nat) (hpair : (Db.new.run I ops).pair I my c = .ok (u, v))
    (a : Account) (ha : (Db.new.run I ops).getAccount I my c = .ok a) (cache : List Bytes) (hcache : (Db.new.run I ops).getCache I my c = .ok cache)
    (l : List Mail) (hl : Listed box a.lastMsgTime l)
    (mixes : List MAddr) (p : Params) (hp : (p.template []).Fits) (hsec : p.secret = a.secret) (c0 : Int) (r0 : Nat) (e0 n0 ma : Bytes) (hn0 : n0.length = 32)
    (hnew : newNymAddress W.P c0 true true (some mixes) p my (a.privkey.drop 32) a.server r0 e0 n0 = .ok (ma, A.nyms L.bob.identity))
    (look : KeyFunc) (hlook : ∀ m ∈ mixes, ∃ k, m.pubkey = W.P.pub k ∧ look (W.P.pub k) = some k)
    (xs : Nat → Bytes × Bool) :
    ∃ ms A', sendRun (memSender P T L) rs A = some (ms, A') ∧ ms.length = rs.length ∧
      ∀ (x : Nat × Trip × Mail) (arr : List (Nat × Trip × Mail)), box = x.2.2 :: arr.map (·.2.2) ++ seen →
        (Msg.effKeys L.nB).toNat ≤ x.1 → 301 < Msg.roundUp x.1 (Msg.effKeys L.nB).toNat →
        (∀ r ∈ rs[x.1]?, Msg.Apart P L rs r (xs 0).1) →
        (∀ y ∈ x :: arr, ∃ m to, ms[y.1]? = some m ∧ y.2.1.Fine p m.2 ∧ Travels W look m.2 m.1 y.2.1 y.2.2.text to) →
        ∀ (n : Nat) (later : List (List Op × (Nat → Bytes × Bool))), (∀ y ∈ later, ∀ op ∈ y.1, FetchOp op) →
        ∃ db' B', liveRounds W.P (memOpener P T L) I (n + 2) ((fetchRun my c cache l, xs) :: later) (Db.new.run I ops) B =
            some (db', B', false :: later.map fun _ => false) ∧
          db'.messages = (Db.new.run I ops).messages := by
  obtain ⟨ws, A', hsend⟩ := Msg.sendAll_succeeds hP hL rs hrs hfit hd hk A B hS
  obtain ⟨hlen, hsent⟩ := Msg.sendAll_sent hP hL rs hrs hd hk A B A' hS ws hsend
  have hnym : nymOf P L A = A.nyms L.bob.identity := by unfold nymOf; rw [hS.stA]
  have hpn : CryptRun.PlainNym (nymOf P L A) := by
    obtain ⟨_, _, _, _, b, ad, _, _, _, h4, _, h6⟩ := newNymAddress_ok W.P c0 true true (some mixes) p my _ _ r0 e0 n0 ma _ hnew
    rw [hnym, h6]
    refine plainNym_encode fun hb => ?_
    rw [hb] at h4
    cases h4
  refine ⟨_, A', sendRun_mem hP T hL rs hrs A A' hpn ws hsend, by simp [hlen], ?_⟩
  intro x arr hbox hfar1 hfar2 hfirst htr n later hlater
  have hox : ∀ y ∈ x :: arr, openEnvelope W.P my (a.privkey.drop 32) a.server a.secret y.2.2.text = .ok (.opened (ws.getD y.1 [])) :=
    fun y hy => sent_opens hP hb64 hrs hlen hsent hW hp hsec hn0 hnew hlook (hnym ▸ rfl) (htr y hy)
  have hi : x.1 < rs.length := by
    obtain ⟨m, to, h1, -, -⟩ := htr x (.head _)
    have := (List.getElem?_eq_some_iff.mp h1).1
    simpa [hlen] using this
  have hri := List.getElem?_eq_getElem hi
  obtain ⟨nym, ra, hw, hv, hn1, hra, hqm, hrow, hoj, hmsgs, hcont⟩ :=
    after_fetch W.P hist hops hempty hpair ha hcache hl (x :: arr) (·.2.2) (fun x => ws.getD x.1 []) hbox hox rfl
  -- the message is refused
  have hno : Msg.Window.accepts (Msg.effKeys L.nB).toNat ⟨(Msg.effKeys L.nB).toNat, []⟩ x.1 = false := by
    have h1 : ¬ x.1 < (Msg.effKeys L.nB).toNat := by omega
    have h2 : ¬ Msg.roundUp x.1 (Msg.effKeys L.nB).toNat ≤ 301 := by omega
    simp [Msg.Window.accepts, h1, h2]
  have hafter : Msg.Window.after (Msg.effKeys L.nB).toNat ⟨(Msg.effKeys L.nB).toNat, []⟩ x.1 = ⟨(Msg.effKeys L.nB).toNat, []⟩ := by
    simp only [Msg.Window.after, hno, Bool.false_eq_true, if_false]
  have hrok := hrs _ (List.getElem_mem hi)
  have hO : ∀ f s, Msg.Within P L (Msg.sessOf rs) ⟨(Msg.effKeys L.nB).toNat, []⟩ s →
      (memOpener P T L f (ws.getD x.1 []) s).1 = .failed ∧ Msg.Within P L (Msg.sessOf rs) ⟨(Msg.effKeys L.nB).toNat, []⟩ (memOpener P T L f (ws.getD x.1 []) s).2 := by
    intro f s hs
    obtain ⟨B', -, h2, h3⟩ := Msg.openStep_later hP hL hparse hrok (by omega) (hsent _ _ hri) hs f
    have h4 := memOpener_refused T (h3 hno) hkey htext
    rw [h4]
    exact ⟨rfl, by rw [hafter] at h2; exact h2⟩
  obtain ⟨B1, -, f2, f3⟩ := Msg.openStep_first hP hL hparse hrok (by omega) (hsent _ _ hri) hS (xs 0).1 (hfirst _ (by rw [hri]; rfl))
  have f4 := memOpener_refused T (f3 hno) hkey htext
  rw [hafter] at f2
  cases hq : (Db.new.run I (ops ++ fetchRun my c cache l)).inQueue with
  | nil => rw [hq] at hqm; cases hqm
  | cons r t =>
    obtain ⟨i, e⟩ := r
    obtain ⟨r1, r2, r3⟩ := hrow (i, e) (by rw [hq]; exact .head _)
    simp only at r1 r2 r3
    subst r1
    subst r2
    obtain ⟨g1, g2, g3⟩ := live_refused_first W.P (memOpener P T L) hI hw hq r3 hn1 hra (hoj 0 (i, e) _ (by rw [hq]; rfl) rfl) B xs (by rw [f4]) n
    rw [f4] at g1
    obtain ⟨db', B', k1, k2, -⟩ := rounds_refused W.P (memOpener P T L) hI _ _ hO (n + 1) later hlater _ B1 i _ t g2 f2 g3 rfl rfl
    refine ⟨db', B', ?_, k2.trans hmsgs⟩
    rw [liveRounds]
    simp only
    rw [← run_append, g1]
    simp only
    rw [k1]
    rfl

end Verif.Ctrl.Journey

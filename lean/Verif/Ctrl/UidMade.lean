/-
C109: a user ID is made completely or not at all.
-/
import Verif.Ctrl.UidProc

namespace Verif.Ctrl.Uid
open Verif.Sql Verif.Msgdb

variable {σ α β : Type} {I : Ids}

/-! ### the message database -/

theorem activeKey_ne : activeKey ≠ [] := by decide

/-- What is stored at the end of `uidNew`. -/
def store (I : Ids) (id unmapped fullName key server secret : Bytes) (minDelay maxDelay : Int) : M σ Unit := do
  write fun db => db.addNym I id unmapped fullName
  write fun db => db.addAccount I id [] key server secret minDelay maxDelay
  let active ← read fun db => db.getValue activeKey
  if active = [] then write fun db => db.addValue activeKey unmapped else ret ()

/-- The result of making a user ID in the database. -/
structure Stored (I : Ids) (db0 db : Db) (id unmapped fullName key server secret : Bytes) (minDelay maxDelay : Int) : Prop where
  named : unmapped ≠ []
  nym : db.getNym I id = .ok (unmapped, fullName)
  account : ∃ a, db.getAccount I id [] = .ok a ∧ a.privkey = key ∧ a.server = server ∧ a.secret = secret ∧ a.minDelay = minDelay ∧ a.maxDelay = maxDelay
  active : ∃ a, db0.getValue activeKey = .ok a ∧ db.getValue activeKey = .ok (if a = [] then unmapped else a) ∧
    db = db0.run I (.addNym id unmapped fullName :: .addAccount id [] key server secret minDelay maxDelay :: if a = [] then [.addValue activeKey unmapped] else [])

theorem addNym_new {db : Db} (hw : WF I db) {id u f x : Bytes} (hk : db.getNym I id = .ok ([], x)) :
    (∃ e, db.addNym I id u f = .error e) ∨
    (u ≠ [] ∧ I.isMapped id = true ∧ db.addNym I id u f = .ok { db with nyms := insert db.nyms ⟨id, u, f, 0, 0⟩ } ∧
      ∀ r ∈ db.nyms, (r.2.mapped == id) = false) := by
  have hmap : I.isMapped id = true := by
    unfold Db.getNym at hk
    cases hq : I.isMapped id with
    | true => rfl
    | false => rw [hq] at hk; cases hk
  have hnone : first (fun n : Nym => n.mapped == id) db.nyms = none := by
    unfold Db.getNym at hk
    rw [hmap, if_neg (by decide)] at hk
    cases hf : first (fun n : Nym => n.mapped == id) db.nyms with
    | none => rfl
    | some r =>
      rw [hf] at hk
      injection hk with hk
      injection hk with hk _
      exact absurd hk (hw.nymFits r (first_mem hf).1).2.2
  have hall := first_none_iff.mp hnone
  unfold Db.addNym
  split
  · exact .inl ⟨_, rfl⟩
  split
  · exact .inl ⟨_, rfl⟩
  rename_i hu
  split
  · exact .inl ⟨_, rfl⟩
  split
  · exact .inl ⟨_, rfl⟩
  split
  · exact .inl ⟨_, rfl⟩
  rw [if_pos (select_nil_iff.mpr hall)]
  exact .inr ⟨hu, hmap, rfl, hall⟩

theorem store_spec {db : Db} (hw : WF I db) {id u f x : Bytes} (hk : db.getNym I id = .ok ([], x)) (key server secret : Bytes) (mn mx : Int) (s : St σ) (hs : s.db = db) :
    (∃ e, store I id u f key server secret mn mx s = (s, .err e)) ∨
    ∃ db', store I id u f key server secret mn mx s = ({ s with db := db' }, .ok ()) ∧ Stored I db db' id u f key server secret mn mx := by
  have e1 : store I id u f key server secret mn mx s = andThen (write fun db => db.addNym I id u f) (fun _ => andThen (write fun db => db.addAccount I id [] key server secret mn mx)
      fun _ => andThen (read fun db => db.getValue activeKey) fun active => if active = [] then write fun db => db.addValue activeKey u else ret ()) s := rfl
  rcases addNym_new (u := u) (f := f) hw hk with ⟨e, h⟩ | ⟨hu, hmap, h, hall⟩
  · left
    refine ⟨.db e, ?_⟩
    rw [e1]
    simp only [andThen, write, hs, h]
  · right
    let db1 : Db := { db with nyms := insert db.nyms ⟨id, u, f, 0, 0⟩ }
    have hn : first (fun n : Nym => n.mapped == id) db1.nyms = some (nextId db.nyms, ⟨id, u, f, 0, 0⟩) := by
      show first _ (insert db.nyms _) = _
      rw [first_insert, first_none_iff.mpr hall]
      simp
    have hp : db1.pair I id [] = .ok (nextId db.nyms, 0) := by
      unfold Db.pair
      simp only [hmap, Db.nymUID, hn, Option.map_some]
      simp
    have hacc : ∀ r ∈ db1.accounts, isAccount (nextId db.nyms) 0 r.2 = false := by
      intro r hr
      obtain ⟨n, hn⟩ := hw.accountNym r hr
      have := lt_nextId _ hn
      unfold isAccount
      have : r.2.myID ≠ nextId db.nyms := by simp only at this; omega
      simp [this]
    let db2 : Db := { db1 with accounts := insert db1.accounts ⟨nextId db.nyms, 0, key, server, secret, mn, mx, 0, 0⟩ }
    have h2 : db1.addAccount I id [] key server secret mn mx = .ok db2 := by
      unfold Db.addAccount
      simp only [hp]
      rw [if_neg (by rw [Classical.not_not]; exact select_nil_iff.mpr hacc)]
    have hp2 : db2.pair I id [] = .ok (nextId db.nyms, 0) := hp
    have hnym : db2.getNym I id = .ok (u, f) := by
      unfold Db.getNym
      rw [hmap, if_neg (by decide)]
      show (match first (fun n : Nym => n.mapped == id) db1.nyms with
        | none => Except.ok ([], [])
        | some r => Except.ok (r.2.unmapped, r.2.fullName)) = _
      rw [hn]
    have hget : db2.getAccount I id [] = .ok ⟨nextId db.nyms, 0, key, server, secret, mn, mx, 0, 0⟩ := by
      unfold Db.getAccount
      simp only [hp2]
      have : first (isAccount (nextId db.nyms) 0) db2.accounts = some (nextId db1.accounts, ⟨nextId db.nyms, 0, key, server, secret, mn, mx, 0, 0⟩) := by
        show first _ (insert db1.accounts _) = _
        rw [first_insert, first_none_iff.mpr hacc]
        simp [isAccount]
      rw [this]
    have hv : db.getValue activeKey = .ok (((first (fun r : Bytes × Bytes => r.1 == activeKey) db.values).map fun r => r.2.2).getD []) := getValue_first activeKey_ne db
    have hv2 : db2.getValue activeKey = db.getValue activeKey := rfl
    generalize ((first (fun r : Bytes × Bytes => r.1 == activeKey) db.values).map fun r => r.2.2).getD [] = a at hv
    rw [e1]
    by_cases ha : a = []
    · have h3 : ∃ db3, db2.addValue activeKey u = .ok db3 := by
        unfold Db.addValue
        rw [if_neg activeKey_ne, if_neg hu]
        split <;> exact ⟨_, rfl⟩
      obtain ⟨db3, h3⟩ := h3
      have hg : db3.getValue activeKey = .ok u := by
        have := getValue_step (I := I) db2 (.addValue activeKey u) activeKey_ne
        simp only [written, Db.step, Db.apply, h3] at this
        rw [if_pos ⟨trivial, hu⟩] at this
        exact this
      have hsame : db3.nyms = db2.nyms ∧ db3.contacts = db2.contacts ∧ db3.accounts = db2.accounts := by
        unfold Db.addValue at h3
        rw [if_neg activeKey_ne, if_neg hu] at h3
        split at h3 <;> (injection h3 with h3; subst h3; exact ⟨rfl, rfl, rfl⟩)
      refine ⟨db3, ?_, ⟨hu, ?_, ⟨⟨nextId db.nyms, 0, key, server, secret, mn, mx, 0, 0⟩, ?_, rfl, rfl, rfl, rfl, rfl⟩, a, hv, by rw [if_pos ha]; exact hg, ?_⟩⟩
      · have h2' : Db.addAccount I { db with nyms := insert db.nyms ⟨id, u, f, 0, 0⟩ } id [] key server secret mn mx = .ok db2 := h2
        simp only [andThen, write, read, hs, h, h2', hv2, hv, ha, if_true, h3]
      · rw [← hnym]; unfold Db.getNym; rw [hsame.1]
      · rw [← hget]; unfold Db.getAccount Db.pair Db.nymUID Db.contactUID; rw [hsame.1, hsame.2.1, hsame.2.2]
      · simp only [ha, if_true, Db.run, List.foldl_cons, List.foldl_nil, Db.step, Db.apply, h]
        have h2' : Db.addAccount I { db with nyms := insert db.nyms ⟨id, u, f, 0, 0⟩ } id [] key server secret mn mx = .ok db2 := h2
        simp only [h2', h3]
    · refine ⟨db2, ?_, ⟨hu, hnym, ⟨_, hget, rfl, rfl, rfl, rfl, rfl⟩, a, hv, by rw [if_neg ha]; exact hv2.trans hv, ?_⟩⟩
      · have h2' : Db.addAccount I { db with nyms := insert db.nyms ⟨id, u, f, 0, 0⟩ } id [] key server secret mn mx = .ok db2 := h2
        simp only [andThen, write, read, hs, h, h2', hv2, hv, if_neg ha, ret]
      · have h2' : Db.addAccount I { db with nyms := insert db.nyms ⟨id, u, f, 0, 0⟩ } id [] key server secret mn mx = .ok db2 := h2
        simp only [ha, if_false, Db.run, List.foldl_cons, List.foldl_nil, Db.step, Db.apply, h, h2']

/-! ### nothing is stored before the end -/

/-- `m` does not touch the database. -/
def Keeps (m : M σ α) : Prop := ∀ s, (m s).1.db = s.db

theorem Keeps.bind {m : M σ α} {k : α → M σ β} (hm : Keeps m) (hk : ∀ a, Keeps (k a)) : Keeps (m >>= k) := fun s => by
  show (andThen m k s).1.db = _
  have := hm s
  unfold andThen
  cases hq : m s with
  | mk s1 r =>
    rw [hq] at this
    cases r with
    | ok a => exact (hk a s1).trans this
    | err e => exact this
    | hang => exact this

theorem keeps_ret (a : α) : Keeps (ret a : M σ α) := fun _ => rfl
theorem keeps_throw (e : UErr) : Keeps (throw e : M σ α) := fun _ => rfl
theorem keeps_hang : Keeps (fun s => (s, .hang) : M σ α) := fun _ => rfl
theorem keeps_note (e : Ev) : Keeps (note e : M σ Unit) := fun _ => rfl
theorem keeps_ask (f : σ → σ × α) : Keeps (ask f) := fun _ => rfl
theorem keeps_call (e : UErr) (f : σ → σ × Option α) : Keeps (call e f) := fun s => by unfold call; split <;> rfl
theorem keeps_check (e : UErr) (f : σ → σ × Bool) : Keeps (check e f) := fun s => by unfold check; split <;> rfl
theorem keeps_read (f : Db → Except Err α) : Keeps (read f : M σ α) := fun s => by unfold read; split <;> rfl
theorem keeps_take (E : Env σ) (u : Usage) (o : Bytes) : Keeps (takeToken E u o) := (keeps_call _ _).bind fun _ => (keeps_note _).bind fun _ => keeps_ret _
theorem keeps_unlock (E : Env σ) (t : Bytes) : Keeps (unlock E t) := fun _ => rfl
theorem keeps_del (E : Env σ) (t : Bytes) : Keeps (del E t) := fun _ => rfl
theorem keeps_trySend (E : Env σ) (c : Cmd) : Keeps (trySend E c) := (keeps_ask _).bind fun _ => (keeps_note _).bind fun _ => keeps_ret _
theorem keeps_send (E : Env σ) (c : Cmd) : Keeps (send E c) := (keeps_trySend E c).bind fun b => by
  cases b with
  | false => exact keeps_throw _
  | true => exact keeps_ret _
theorem keeps_scan (E : Env σ) : Keeps (scan E) := (keeps_ask _).bind fun _ => (keeps_note _).bind fun _ => keeps_ret _
theorem keeps_expect (E : Env σ) (w : Bytes) : Keeps (expect E w) := (keeps_scan E).bind fun y => by
  cases y with
  | text t =>
    show Keeps (if t = w then ret () else throw (.crypt t))
    split
    · exact keeps_ret _
    · exact keeps_throw _
  | eof => exact keeps_ret _
  | fail => exact keeps_throw _
  | block => exact keeps_hang

theorem keeps_until (E : Env σ) : ∀ n x, Keeps (untilReady E n x)
  | 0, _ => keeps_hang
  | n + 1, x => (keeps_scan E).bind fun y => by
    cases y with
    | text t =>
      show Keeps (if t = ready then ret x else untilReady E n (.bad t))
      split
      · exact keeps_ret _
      · exact keeps_until E n _
    | eof => exact keeps_ret _
    | fail => exact keeps_ret _
    | block => exact keeps_hang

theorem keeps_newCrypt (E : Env σ) (n : Nat) (id x y : Bytes) : Keeps (newCrypt E n id x y) := by
  refine Keeps.bind ?_ fun owner => Keeps.bind ?_ fun err => Keeps.bind ?_ fun _ => (keeps_send _ _).bind fun _ => (keeps_expect _ _).bind fun _ => (keeps_check _ _).bind fun _ => ?_
  · exact (keeps_check _ _).bind fun _ => (keeps_send _ _).bind fun _ => (keeps_expect _ _).bind fun _ => (keeps_send _ _).bind fun _ => (keeps_expect _ _).bind fun _ => keeps_call _ _
  · refine (keeps_take _ _ _).bind fun t => (keeps_trySend _ _).bind fun b => ?_
    cases b with
    | false => exact (keeps_unlock _ _).bind fun _ => keeps_throw _
    | true =>
      refine (keeps_until E n _).bind fun x => ?_
      cases x with
      | broken => exact (keeps_unlock _ _).bind fun _ => keeps_throw _
      | bad b => exact (keeps_unlock _ _).bind fun _ => (keeps_send _ _).bind fun _ => (keeps_expect _ _).bind fun _ => keeps_ret _
      | fine => exact (keeps_del _ _).bind fun _ => keeps_ret _
  · refine (keeps_take _ _ _).bind fun t => (keeps_trySend _ _).bind fun b => ?_
    cases b with
    | false => exact (keeps_unlock _ _).bind fun _ => keeps_throw _
    | true =>
      refine (keeps_scan E).bind fun y => ?_
      cases y with
      | text u =>
        show Keeps (if u = ready then del E t else throw (.crypt u))
        split
        · exact keeps_del _ _
        · exact keeps_throw _
      | eof => exact keeps_del _ _
      | fail => exact (keeps_unlock _ _).bind fun _ => keeps_throw _
      | block => exact keeps_hang
  · cases err with
    | none => exact keeps_ret _
    | some l => exact keeps_throw _

theorem keeps_newAccount (E : Env σ) : Keeps (newAccount E) := by
  refine (keeps_take _ _ _).bind fun t => (keeps_call _ _).bind fun key => (keeps_ask _).bind fun o => ?_
  cases o with
  | none => exact (keeps_note _).bind fun _ => (keeps_unlock _ _).bind fun _ => keeps_throw _
  | some v => exact (keeps_note _).bind fun _ => (keeps_del _ _).bind fun _ => keeps_ret _

/-- Without success the database stays as it is, with success it changes like `Q` says. -/
def Changes (P : Db → Prop) (Q : Db → Db → Prop) (m : M σ α) : Prop :=
  ∀ s, P s.db → ((m s).1.db = s.db ∧ ∀ a, (m s).2 ≠ .ok a) ∨ ((∃ a, (m s).2 = .ok a) ∧ Q s.db (m s).1.db)

theorem changes_throw {P : Db → Prop} {Q : Db → Db → Prop} (e : UErr) : Changes P Q (throw e : M σ α) := fun s _ => .inl ⟨rfl, nofun⟩

theorem Changes.bind {P : Db → Prop} {Q : Db → Db → Prop} {m : M σ α} {k : α → M σ β} (hm : Keeps m) (hk : ∀ a, Changes P Q (k a)) : Changes P Q (m >>= k) := fun s hs => by
  change ((andThen m k s).1.db = _ ∧ ∀ a, (andThen m k s).2 ≠ _) ∨ ((∃ a, (andThen m k s).2 = _) ∧ Q s.db (andThen m k s).1.db)
  have := hm s
  unfold andThen
  cases hq : m s with
  | mk s1 r =>
    rw [hq] at this
    have this : s1.db = s.db := this
    cases r with
    | ok a =>
      have := hk a s1 (by rwa [this])
      rename_i h
      rw [h] at this
      exact this
    | err e => exact .inl ⟨this, nofun⟩
    | hang => exact .inl ⟨this, nofun⟩

theorem Changes.read {P : Db → Prop} {Q : Db → Db → Prop} {f : Db → Except Err α} {k : α → M σ β} (hk : ∀ a, Changes (fun db => P db ∧ f db = .ok a) Q (k a)) :
    Changes P Q (read f >>= k) := fun s hs => by
  change ((andThen (Uid.read f) k s).1.db = _ ∧ ∀ a, (andThen (Uid.read f) k s).2 ≠ _) ∨ ((∃ a, (andThen (Uid.read f) k s).2 = _) ∧ Q s.db (andThen (Uid.read f) k s).1.db)
  unfold andThen Uid.read
  cases hf : f s.db with
  | error e => exact .inl ⟨rfl, nofun⟩
  | ok a => exact hk a s ⟨hs, hf⟩

/-- What making a user ID does to the database. -/
theorem changes_uidNew (E : Env σ) (n : Nat) (unmapped fullName : Bytes) (minDelay maxDelay : Int) :
    Changes (WF I) (fun db db' => ∃ id key server secret, I.map unmapped = some id ∧ db.getNym I id = .ok ([], []) ∧ Stored I db db' id unmapped fullName key server secret minDelay maxDelay)
      (uidNew E I n unmapped fullName minDelay maxDelay) := by
  unfold uidNew
  split
  · exact changes_throw _
  rename_i id hid
  refine Changes.bind (keeps_check _ _) fun _ => Changes.read fun r => ?_
  obtain ⟨known, x⟩ := r
  simp only
  split
  · exact changes_throw _
  rename_i hk
  have hk : known = [] := Classical.not_not.mp hk
  subst hk
  refine Changes.bind (keeps_ask _) fun found => ?_
  split
  · exact changes_throw _
  refine Changes.bind (keeps_newAccount _) fun a => Changes.bind (keeps_call _ _) fun secret => Changes.bind (keeps_call _ _) fun b =>
    Changes.bind (keeps_newCrypt _ _ _ _ _) fun _ => ?_
  rintro s ⟨hw, hk⟩
  have hx : x = [] := by
    unfold Db.getNym at hk
    split at hk
    · cases hk
    split at hk
    · injection hk with hk; injection hk with _ hk; exact hk.symm
    · rename_i r hr
      injection hk with hk; injection hk with hk _
      exact absurd hk (hw.nymFits r (first_mem hr).1).2.2
  subst hx
  rcases store_spec (u := unmapped) (f := fullName) hw hk a.1 a.2 secret minDelay maxDelay s rfl with ⟨e, he⟩ | ⟨db', he, hst⟩
  · refine .inl ⟨congrArg (fun z => z.1.db) he, fun b hb => ?_⟩
    cases (congrArg Prod.snd he).symm.trans hb
  · refine .inr ⟨⟨(), congrArg Prod.snd he⟩, id, a.1, a.2, secret, hid, hk, ?_⟩
    rw [← show _ = db' from congrArg (fun z => z.1.db) he] at hst
    exact hst

/-! ### C109 -/

/-- An attempt to make a user ID that does not succeed, be it with an error or because it never
ends, leaves the message database as it was, whatever the processes and servers do. -/
theorem C109_failed_unchanged (E : Env σ) (n : Nat) (unmapped fullName : Bytes) (minDelay maxDelay : Int) (s : St σ) (hs : Reached I s.db)
    (h : (uidNew E I n unmapped fullName minDelay maxDelay s).2 ≠ .ok ()) :
    (uidNew E I n unmapped fullName minDelay maxDelay s).1.db = s.db := by
  rcases changes_uidNew E n unmapped fullName minDelay maxDelay s hs.wf with ⟨h1, _⟩ | ⟨⟨_, h1⟩, _⟩
  · exact h1
  · exact absurd h1 h

theorem succ_newAccount {E : Env σ} {run : σ → Cmd → σ × Did} {db0 : Db} :
    Succ (fun s => s.db = db0) (newAccount (withProc E run)) (fun a s => s.db = db0 ∧ ∃ t w, (E.load w E.default a.1 t).2 = some a.2 ∧ .paid E.default a.1 t ∈ s.log) := by
  have ht : Succ (fun s => s.db = db0) (takeToken (withProc E run) .account []) (fun _ s => s.db = db0) :=
    fun s hs _ _ => (keeps_take _ _ _ s).trans hs
  refine ht.bind fun t => ?_
  refine (succ_call (Q := fun _ s => s.db = db0) fun s a hs _ => hs).bind fun key =>
    (succ_ask (Q := fun o s => s.db = db0 ∧ ∃ w, (E.load w E.default key t).2 = o) fun s hs => ⟨hs, s.w.1, rfl⟩).bind fun o => ?_
  cases o with
  | none => exact (succ_any _).bind fun _ => (succ_any _).bind fun _ => succ_throw _
  | some v =>
    refine (succ_note (Q := fun _ s => s.db = db0 ∧ (∃ w, (E.load w E.default key t).2 = some v) ∧ .paid E.default key t ∈ s.log)
      fun s hs => ⟨hs.1, hs.2, List.mem_append.mpr (.inr (.head _))⟩).bind fun _ => ?_
    refine Succ.bind (Q := fun _ s => s.db = db0 ∧ (∃ w, (E.load w E.default key t).2 = some v) ∧ .paid E.default key t ∈ s.log)
      (fun s hs a _ => ⟨hs.1, hs.2.1, List.mem_append.mpr (.inl hs.2.2)⟩) fun _ => (succ_ret _).mono (fun _ h => h) ?_
    rintro a s ⟨rfl, h1, ⟨w, h2⟩, h3⟩
    exact ⟨h1, t, w, h2, h3⟩

/-- When making a user ID succeeds, `mutecrypt` generated and registered it and added a key init
message, all with success; the address in that message is one for the account that was paid for,
and the message database has the user ID, its name, and the account with key, server and secret.
The first user ID becomes the active one. Here `mutecrypt` runs the command loop with any results of
the commands; the only assumption is that no error text begins with the line "READY.". -/
theorem C109_made_partial (E : Env σ) (run : σ → Cmd → σ × Did) (hr : ∀ w c f m, (run w c).2 = .failed f m → f ≠ ready)
    (n : Nat) (unmapped fullName : Bytes) (minDelay maxDelay : Int) (s s' : St (σ × Proc)) (hs : Reached I s.db)
    (h : uidNew (withProc E run) I n unmapped fullName minDelay maxDelay s = (s', .ok ())) :
    ∃ id key server secret mixaddress nymaddress t t' t'', I.map unmapped = some id ∧
      s'.w.2.done = [(.generate id, .ok), (.caps (E.domain id), .ok), (.register id t', .ok), (.keyinit id mixaddress nymaddress t'', .ok), (.quit, .ok)] ∧
      (∃ w, (E.address w (E.domain id) secret id key server).2 = some (mixaddress, nymaddress)) ∧
      (∃ w, (E.load w E.default key t).2 = some server) ∧ .paid E.default key t ∈ s'.log ∧
      s'.db.getNym I id = .ok (unmapped, fullName) ∧
      (∃ a, s'.db.getAccount I id [] = .ok a ∧ a.privkey = key ∧ a.server = server ∧ a.secret = secret ∧ a.minDelay = minDelay ∧ a.maxDelay = maxDelay) ∧
      (∃ a, s.db.getValue activeKey = .ok a ∧ s'.db.getValue activeKey = .ok (if a = [] then unmapped else a)) := by
  cases hid : I.map unmapped with
  | none => unfold uidNew at h; rw [hid] at h; injection h with _ h; cases h
  | some id =>
    have main : Succ (fun x => x.db = s.db) (uidNew (withProc E run) I n unmapped fullName minDelay maxDelay) (fun _ x =>
        ∃ key server secret mixaddress nymaddress t t' t'',
          x.w.2.done = [(.generate id, .ok), (.caps (E.domain id), .ok), (.register id t', .ok), (.keyinit id mixaddress nymaddress t'', .ok), (.quit, .ok)] ∧
          (∃ w, (E.address w (E.domain id) secret id key server).2 = some (mixaddress, nymaddress)) ∧
          (∃ w, (E.load w E.default key t).2 = some server) ∧ .paid E.default key t ∈ x.log ∧
          Stored I s.db x.db id unmapped fullName key server secret minDelay maxDelay) := by
      unfold uidNew
      rw [hid]
      refine (succ_check (Q := fun _ x => x.db = s.db) fun x hx _ => hx).bind fun _ =>
        (succ_read (Q := fun r x => x.db = s.db ∧ s.db.getNym I id = .ok r) fun x r hx hg => ⟨hx, hx ▸ hg⟩).bind fun r => ?_
      obtain ⟨known, nm⟩ := r
      simp only
      split
      · exact succ_throw _
      rename_i hk
      have hk : known = [] := Classical.not_not.mp hk
      subst hk
      refine (succ_ask (Q := fun _ x => x.db = s.db ∧ s.db.getNym I id = .ok ([], nm)) fun x hx => hx).bind fun found => ?_
      split
      · exact succ_throw _
      by_cases hg : s.db.getNym I id = .ok ([], nm)
      case neg => exact fun x hx => absurd hx.2 hg
      refine (succ_newAccount (db0 := s.db)).mono (fun x hx => hx.1) (fun _ _ h => h) |>.bind fun a => ?_
      obtain ⟨key, server⟩ := a
      simp only
      refine (succ_call (Q := fun _ x => x.db = s.db ∧ ∃ t w, (E.load w E.default key t).2 = some server ∧ .paid E.default key t ∈ x.log) fun x _ hx _ => hx).bind fun secret =>
        (succ_call (Q := fun b x => (x.db = s.db ∧ ∃ t w, (E.load w E.default key t).2 = some server ∧ .paid E.default key t ∈ x.log) ∧
          ∃ w, (E.address w (E.domain id) secret id key server).2 = some b) fun x b hx hb => ⟨hx, x.w.1, hb⟩).bind fun b => ?_
      obtain ⟨mixaddress, nymaddress⟩ := b
      simp only
      have hX : Lasting (fun d g => d = s.db ∧ (∃ w, (E.address w (E.domain id) secret id key server).2 = some (mixaddress, nymaddress)) ∧
          ∃ t w, (E.load w E.default key t).2 = some server ∧ .paid E.default key t ∈ g) := by
        rintro d g e ⟨h1, h2, t, w, h3, h4⟩
        exact ⟨h1, h2, t, w, h3, List.mem_append.mpr (.inl h4)⟩
      refine ((succ_newCrypt (E := E) hr hX n id mixaddress nymaddress).mono (fun x hx => ⟨hx.1.1, hx.2, hx.1.2⟩) fun _ _ h => h).bind fun _ => ?_
      rintro x ⟨t', t'', hd, hdb, hadr, t, w, hl, hp⟩ a ha
      rcases store_spec (u := unmapped) (f := fullName) hs.wf hg key server secret minDelay maxDelay x hdb with ⟨e, he⟩ | ⟨db', he, hst⟩
      · have := (congrArg Prod.snd he).symm.trans ha
        cases this
      · have e2 : ∀ y, y = store I id unmapped fullName key server secret minDelay maxDelay x →
            ∃ key server secret mixaddress nymaddress t t' t'',
            y.1.w.2.done = [(.generate id, .ok), (.caps (E.domain id), .ok), (.register id t', .ok), (.keyinit id mixaddress nymaddress t'', .ok), (.quit, .ok)] ∧
            (∃ w, (E.address w (E.domain id) secret id key server).2 = some (mixaddress, nymaddress)) ∧
            (∃ w, (E.load w E.default key t).2 = some server) ∧ .paid E.default key t ∈ y.1.log ∧
            Stored I s.db y.1.db id unmapped fullName key server secret minDelay maxDelay := by
          rintro y rfl
          rw [he]
          exact ⟨key, server, secret, mixaddress, nymaddress, t, t', t'', hd, hadr, ⟨w, hl⟩, hp, hst⟩
        exact e2 _ rfl
    have := main s rfl () (by rw [h])
    rw [h] at this
    obtain ⟨key, server, secret, x, y, t, t', t'', h1, h2, h3, h4, h5⟩ := this
    refine ⟨id, key, server, secret, x, y, t, t', t'', rfl, h1, h2, h3, h4, h5.nym, h5.account, ?_⟩
    obtain ⟨a, ha, hb, _⟩ := h5.active
    exact ⟨a, ha, hb⟩

end Verif.Ctrl.Uid

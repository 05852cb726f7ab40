/-
Fetching the messages of an account (ctrlengine/msg.go:478-647 and 820-842,
protoengine/fetch.go:21-103).

The server lists the newest message first. What `muteproto` reports is a list of messages; the
database operations of a run follow from it. An interrupted run is a prefix of these operations.
-/
import Verif.Msgdb.Nyms

namespace Verif.Ctrl
open Verif.Sql Verif.Msgdb

variable {I : Ids} {db : Db}

/-- A message on the server: its ID in base64, the receive time and the encoded text
(fetch.go:61-92). -/
structure Mail where
  id : Bytes
  time : Int
  text : Bytes
  deriving DecidableEq, Repr

/-- The loop over the listed messages (msg.go:545-642). -/
def fetchOps (my c : Bytes) (cache : List Bytes) : List Mail → List Op
  | [] => []
  | m :: l =>
    if m.id ∈ cache then [.removeCache my c m.id]
    else .addCache my c m.id :: .addInQueue my c m.time m.text :: fetchOps my c cache l

/-- `newMessageTime` is the time of the first message, if it was fetched (msg.go:637-640,
835-840). -/
def lastOps (my c : Bytes) (cache : List Bytes) : List Mail → List Op
  | [] => []
  | m :: _ => if m.id ∈ cache then [] else if 0 < m.time then [.setAccountLastMsg my c m.time] else []

/-- One run for an account. -/
def fetchRun (my c : Bytes) (cache : List Bytes) (l : List Mail) : List Op := fetchOps my c cache l ++ lastOps my c cache l

/-- A reply of the server to a request for the messages after the time `last`: the newest ones of
the mailbox, with at least all that are newer than `last`. -/
def Listed (box : List Mail) (last : Int) (l : List Mail) : Prop := l <+: box ∧ ∀ m ∈ box, last < m.time → m ∈ l

/-- The operations that have nothing to do with the fetch state of the account. -/
def Foreign (my c : Bytes) : Op → Prop
  | .addCache m k _ => (m, k) ≠ (my, c)
  | .removeCache m k _ => (m, k) ≠ (my, c)
  | .setAccountLastMsg m k _ => (m, k) ≠ (my, c)
  | .delNym m => m ≠ my
  | _ => True

/-- The histories of an account: messages arrive (with new IDs and increasing times), the account
is fetched (completely) and other things happen. The list `box` is the mailbox with the newest
message first, `seen` is what it was at the last run. -/
inductive History (I : Ids) (my c : Bytes) : List Op → List Mail → List Mail → Prop
  | start (ops : List Op) (a : Account) : (Db.new.run I ops).getAccount I my c = .ok a → a.lastMsgTime = 0 →
      (Db.new.run I ops).getCache I my c = .ok [] → History I my c ops [] []
  | arrive (ops : List Op) (box seen : List Mail) (m : Mail) : History I my c ops box seen → m.id ≠ [] → 0 < m.time →
      (∀ b ∈ box, b.id ≠ m.id ∧ b.time < m.time) → History I my c ops (m :: box) seen
  | fetch (ops : List Op) (box seen : List Mail) (a : Account) (cache : List Bytes) (l : List Mail) : History I my c ops box seen →
      (Db.new.run I ops).getAccount I my c = .ok a → (Db.new.run I ops).getCache I my c = .ok cache → Listed box a.lastMsgTime l →
      History I my c (ops ++ fetchRun my c cache l) box box
  | other (ops : List Op) (box seen : List Mail) (op : Op) : History I my c ops box seen → Foreign my c op → History I my c (ops ++ [op]) box seen

/-! ### what other operations keep -/

/-- The fetch state of an account. -/
structure Fetched (I : Ids) (my c : Bytes) (db : Db) (ids : List Bytes) (last : Int) : Prop where
  cache : db.getCache I my c = .ok ids
  account : ∃ a, db.getAccount I my c = .ok a ∧ a.lastMsgTime = last

theorem first_insert_some {α : Type} {p : α → Bool} {t : Table α} {r : Nat × α} (h : first p t = some r) (a : α) : first p (Sql.insert t a) = some r := by
  unfold first Sql.insert at *
  rw [List.find?_append, h]
  rfl

theorem pair_mono {db db' : Db} {my c : Bytes} {r : Nat × Nat} (h1 : ∀ m u, db.nymUID m = some u → db'.nymUID m = some u)
    (h2 : ∀ u m k, db.contactUID u m = some k → db'.contactUID u m = some k) (h : db.pair I my c = .ok r) : db'.pair I my c = .ok r := by
  unfold Db.pair at h ⊢
  split at h
  · cases h
  rename_i a1
  split at h
  · cases h
  rename_i a2
  rw [if_neg a1, if_neg a2]
  split at h
  · cases h
  rename_i u hu
  rw [h1 _ _ hu]
  split at h
  · rename_i a3
    simp only [if_pos a3]; exact h
  rename_i a3
  simp only [if_neg a3]
  split at h
  · cases h
  rename_i k hk
  rw [h2 _ _ _ hk]
  exact h

theorem fetched_ids {db db' : Db} {my c : Bytes} {ids : List Bytes} {last : Int} (h1 : ∀ m u, db.nymUID m = some u → db'.nymUID m = some u)
    (h2 : ∀ u m k, db.contactUID u m = some k → db'.contactUID u m = some k) (hc : db'.cache = db.cache) (ha : db'.accounts = db.accounts)
    (h : Fetched I my c db ids last) : Fetched I my c db' ids last := by
  obtain ⟨a, b, e, hl⟩ := h
  unfold Db.getCache at a
  unfold Db.getAccount at e
  cases hp : db.pair I my c with
  | error e => simp only [hp] at a; cases a
  | ok r =>
    obtain ⟨u, v⟩ := r
    simp only [hp] at a e
    have hp' := pair_mono h1 h2 hp
    constructor
    · simp only [Db.getCache, hp', hc]; exact a
    · simp only [Db.getAccount, hp', ha]; exact ⟨b, e, hl⟩

theorem nymUID_update (p : Nym → Bool) (f : Nym → Nym) (hf : ∀ n, (f n).mapped = n.mapped) (m : Bytes) :
    ({ db with nyms := update p f db.nyms } : Db).nymUID m = db.nymUID m := by
  unfold Db.nymUID
  rw [first_update _ _ _ _ fun a _ => by simp only [hf]]
  cases first (fun n : Nym => n.mapped == m) db.nyms with
  | none => rfl
  | some r =>
    simp only [Option.map_some, Option.some.injEq]
    split <;> rfl

theorem contactUID_update (p : Contact → Bool) (f : Contact → Contact) (hf : ∀ n, (f n).mapped = n.mapped ∧ (f n).myID = n.myID) (u : Nat) (m : Bytes) :
    ({ db with contacts := update p f db.contacts } : Db).contactUID u m = db.contactUID u m := by
  unfold Db.contactUID
  rw [first_update _ _ _ _ fun a _ => by simp only [isContact, hf]]
  cases first (isContact u m) db.contacts with
  | none => rfl
  | some r =>
    simp only [Option.map_some, Option.some.injEq]
    split <;> rfl

theorem getCache_other (hw : WF I db) {my c my' c' : Bytes} (hne : (my', c') ≠ (my, c)) {u v : Nat} (hp : db.pair I my' c' = .ok (u, v)) {u' v' : Nat}
    (hp' : db.pair I my c = .ok (u', v')) : ¬ (u' = u ∧ v' = v) := by
  rintro ⟨rfl, rfl⟩
  obtain ⟨e1, e2⟩ := pair_cases hw hp hp'
  exact hne (by rw [e1, e2])

theorem fetched_accounts (hw : WF I db) {my c my' c' : Bytes} {ids : List Bytes} {last : Int} (h : Fetched I my c db ids last) {u v : Nat}
    (hp : db.pair I my' c' = .ok (u, v)) (f : Account → Account) (hf : ∀ a, (f a).myID = a.myID ∧ (f a).contactID = a.contactID)
    (hk : (my', c') ≠ (my, c) ∨ ∀ a, (f a).lastMsgTime = a.lastMsgTime) :
    Fetched I my c { db with accounts := update (isAccount u v) f db.accounts } ids last := by
  obtain ⟨a, b, e, hl⟩ := h
  refine ⟨a, ?_⟩
  unfold Db.getAccount at e
  cases hp' : db.pair I my c with
  | error e' => simp only [hp'] at e; cases e
  | ok r =>
    obtain ⟨u', v'⟩ := r
    simp only [hp'] at e
    have hp2 : ({ db with accounts := update (isAccount u v) f db.accounts } : Db).pair I my c = .ok (u', v') := hp'
    simp only [Db.getAccount, hp2]
    split at e
    · cases e
    rename_i r hr
    injection e with e; subst e
    rw [first_update _ _ _ _ fun a _ => by simp only [isAccount, hf]]
    rw [hr]
    simp only [Option.map_some]
    refine ⟨_, rfl, ?_⟩
    split
    · rename_i hi
      rcases hk with hne | hk
      · exfalso
        have h1 := (first_mem hr).2
        simp only [isAccount, Bool.and_eq_true, beq_iff_eq] at h1 hi
        exact getCache_other hw hne hp hp' ⟨by rw [← h1.1, ← hi.1], by rw [← h1.2, ← hi.2]⟩
      · rw [hk]; exact hl
    · exact hl

theorem fetched_cache {my c : Bytes} {ids : List Bytes} {last : Int} (h : Fetched I my c db ids last) (t : Table CacheEntry)
    (ht : ({ db with cache := t } : Db).getCache I my c = db.getCache I my c) : Fetched I my c { db with cache := t } ids last :=
  ⟨ht.trans h.cache, h.account⟩

/-- Everything else leaves the fetch state of the account alone. -/
theorem fetched_other {my c : Bytes} {ids : List Bytes} {last : Int} (ops : List Op) (hdb : db = Db.new.run I ops) (h : Fetched I my c db ids last) (op : Op) (ho : Foreign my c op) :
    Fetched I my c (db.step I op) ids last := by
  have hw : WF I db := by rw [hdb]; exact wf_reach ops
  unfold Db.step
  cases he : db.apply I op with
  | error e => exact h
  | ok db' =>
    simp only
    cases op with
    | addCache m k i =>
      have h1 := (C50_add_appends ops hdb m k i he).2 my c (Ne.symm ho)
      simp only [Db.apply] at he
      unfold Db.addCache at he
      split at he
      · cases he
      split at he
      · cases he
      injection he with he; subst he
      exact fetched_cache h _ h1
    | removeCache m k i =>
      have h1 := (C50_trim_keeps_newer ops hdb m k i he).2 my c (Ne.symm ho)
      simp only [Db.apply] at he
      unfold Db.removeCache at he
      split at he
      · cases he
      split at he
      · cases he
      split at he
      · cases he
      injection he with he; subst he
      exact fetched_cache h _ h1
    | setAccountLastMsg m k t =>
      simp only [Db.apply] at he
      unfold Db.setAccountLastMsg at he
      split at he
      · cases he
      rename_i hp
      injection he with he; subst he
      exact fetched_accounts hw h hp _ (fun _ => ⟨rfl, rfl⟩) (.inl ho)
    | setAccountTime m k t =>
      simp only [Db.apply] at he
      unfold Db.setAccountTime at he
      split at he
      · cases he
      rename_i hp
      injection he with he; subst he
      exact fetched_accounts hw h hp _ (fun _ => ⟨rfl, rfl⟩) (.inr fun _ => rfl)
    | addAccount m k pk sv se mi ma =>
      simp only [Db.apply] at he
      unfold Db.addAccount at he
      split at he
      · cases he
      split at he
      · cases he
      injection he with he; subst he
      refine ⟨h.cache, ?_⟩
      obtain ⟨a, e, hl⟩ := h.account
      refine ⟨a, ?_, hl⟩
      unfold Db.getAccount at e
      split at e
      · cases e
      rename_i u v hp
      split at e
      · cases e
      rename_i r hr
      have hp2 : ∀ t, ({ db with accounts := t } : Db).pair I my c = .ok (u, v) := fun _ => hp
      simp only [Db.getAccount, hp2, first_insert_some hr]
      exact e
    | delNym m =>
      simp only [Db.apply] at he
      obtain ⟨u, n, hn, rfl, rfl⟩ := delNym_ok he
      have hne : my ≠ n.mapped := Ne.symm ho
      have hnu := cascade_nymUID hw hn hne
      have hpp : (db.cascade u).pair I my c = db.pair I my c := cascade_pair hnu fun v hv => nymUID_ne hw hn hne hv
      obtain ⟨a, b, e, hl⟩ := h
      unfold Db.getCache at a
      unfold Db.getAccount at e
      cases hp : db.pair I my c with
      | error e => simp only [hp] at a; cases a
      | ok r =>
        obtain ⟨v, w⟩ := r
        have hv := nymUID_ne hw hn hne (pair_ok hp).1
        simp only at hv
        simp only [hp] at a e
        refine ⟨?_, b, ?_, hl⟩
        · simp only [Db.getCache, hpp, hp]
          simp only [Db.cascade, delete]
          rw [select_filter_other fun r _ hr => ?_]
          · exact a
          · simp only [isCached, Bool.and_eq_true, beq_iff_eq] at hr
            simpa [hr.1] using hv
        · simp only [Db.getAccount, hpp, hp]
          simp only [Db.cascade, delete]
          rw [first_filter fun r _ hr => ?_]
          · exact e
          · simp only [isAccount, Bool.and_eq_true, beq_iff_eq] at hr
            simpa [hr.1] using hv
    | addNym m u f =>
      simp only [Db.apply] at he
      unfold Db.addNym at he
      repeat' split at he
      all_goals first
        | cases he; done
        | skip
      · injection he with he; subst he
        refine fetched_ids (db := db) (fun x y hy => ?_) (fun _ _ _ hh => hh) rfl rfl h
        unfold Db.nymUID at hy ⊢
        obtain ⟨r, hr, rfl⟩ := Option.map_eq_some_iff.mp hy
        simp only [first_insert_some hr]; rfl
      · injection he with he; subst he
        refine fetched_ids (db := db) (fun x y hy => ?_) (fun _ _ _ hh => hh) rfl rfl h
        rw [nymUID_update _ _ fun _ => by rfl]; exact hy
    | setUpkeepAll m t =>
      simp only [Db.apply] at he
      unfold Db.setUpkeepAll at he
      split at he
      · cases he
      injection he with he; subst he
      refine fetched_ids (db := db) (fun x y hy => ?_) (fun _ _ _ hh => hh) rfl rfl h
      rw [nymUID_update _ _ fun _ => by rfl]; exact hy
    | setUpkeepAccounts m t =>
      simp only [Db.apply] at he
      unfold Db.setUpkeepAccounts at he
      split at he
      · cases he
      injection he with he; subst he
      refine fetched_ids (db := db) (fun x y hy => ?_) (fun _ _ _ hh => hh) rfl rfl h
      rw [nymUID_update _ _ fun _ => by rfl]; exact hy
    | addContact m k u f ty =>
      simp only [Db.apply] at he
      unfold Db.addContact at he
      repeat' split at he
      all_goals first
        | cases he; done
        | skip
      · injection he with he; subst he
        refine fetched_ids (db := db) (fun _ _ hh => hh) (fun x z y hy => ?_) rfl rfl h
        unfold Db.contactUID at hy ⊢
        obtain ⟨r, hr, rfl⟩ := Option.map_eq_some_iff.mp hy
        simp only [first_insert_some hr]; rfl
      · injection he with he; subst he
        refine fetched_ids (db := db) (fun _ _ hh => hh) (fun x z y hy => ?_) rfl rfl h
        rw [contactUID_update _ _ fun _ => ⟨by rfl, by rfl⟩]; exact hy
    | removeContact m k =>
      simp only [Db.apply] at he
      unfold Db.removeContact at he
      repeat' split at he
      all_goals first
        | cases he; done
        | skip
      injection he with he; subst he
      refine fetched_ids (db := db) (fun _ _ hh => hh) (fun x z y hy => ?_) rfl rfl h
      rw [contactUID_update _ _ fun _ => ⟨by rfl, by rfl⟩]; exact hy
    | _ =>
      simp only [Db.apply] at he
      try unfold Db.addValue at he
      try unfold Db.addMessage at he
      try unfold Db.readMessage at he
      try unfold Db.delMessage at he
      try unfold Db.addOutQueue at he
      try unfold Db.setOutQueue at he
      try unfold Db.removeOutQueue at he
      try unfold Db.retractOutQueue at he
      try unfold Db.setResend at he
      try unfold Db.clearResend at he
      try unfold Db.addInQueue at he
      try unfold Db.setInQueue at he
      try unfold Db.removeInQueue at he
      try unfold Db.delInQueue at he
      repeat' split at he
      all_goals first
        | cases he; done
        | (injection he with he; subst he; exact ⟨h.cache, h.account⟩)

/-! ### a run -/

theorem run_append (ops ops' : List Op) : db.run I (ops ++ ops') = (db.run I ops).run I ops' := by
  unfold Db.run
  rw [List.foldl_append]

theorem run_one (ops : List Op) (op : Op) : db.run I (ops ++ [op]) = (db.run I ops).step I op := by
  rw [run_append]; rfl

/-- The row of a fetched message. -/
def row (u v : Nat) (m : Mail) : InEntry := ⟨u, v, m.time, m.text, true⟩

theorem fetched_pair {my c : Bytes} {ids : List Bytes} {last : Int} (h : Fetched I my c db ids last) : ∃ u v, db.pair I my c = .ok (u, v) := by
  have := h.cache
  unfold Db.getCache at this
  split at this
  · cases this
  rename_i u v hp
  exact ⟨u, v, hp⟩

/-- What a part of a run has done: the cache, the time of the last message and the in-queue. -/
structure Done (I : Ids) (my c : Bytes) (u v : Nat) (ops : List Op) (ids : List Bytes) (last : Int) (queue : List InEntry) : Prop where
  fetched : Fetched I my c (Db.new.run I ops) ids last
  pair : (Db.new.run I ops).pair I my c = .ok (u, v)
  queue : vals (Db.new.run I ops).inQueue = queue

theorem done_addCache {my c : Bytes} {u v : Nat} {ops : List Op} {ids : List Bytes} {last : Int} {q : List InEntry} (h : Done I my c u v ops ids last q)
    (id : Bytes) (hid : id ≠ []) : Done I my c u v (ops ++ [.addCache my c id]) (ids ++ [id]) last q := by
  have he : (Db.new.run I ops).addCache I my c id = .ok { Db.new.run I ops with cache := Sql.insert (Db.new.run I ops).cache ⟨u, v, id⟩ } := by
    unfold Db.addCache
    rw [if_neg hid, h.pair]
  have hs : Db.new.run I (ops ++ [.addCache my c id]) = { Db.new.run I ops with cache := Sql.insert (Db.new.run I ops).cache ⟨u, v, id⟩ } := by
    rw [run_one]
    unfold Db.step
    simp only [Db.apply, he]
  obtain ⟨l, h1, h2⟩ := (C50_add_appends ops rfl my c id he).1
  rw [h.fetched.cache] at h1
  injection h1 with h1; subst h1
  refine ⟨⟨?_, ?_⟩, ?_, ?_⟩
  · rw [hs]; exact h2
  · rw [hs]; exact h.fetched.account
  · rw [hs]; exact h.pair
  · rw [hs]; exact h.queue

theorem done_addInQueue {my c : Bytes} {u v : Nat} {ops : List Op} {ids : List Bytes} {last : Int} {q : List InEntry} (h : Done I my c u v ops ids last q)
    (m : Mail) : Done I my c u v (ops ++ [.addInQueue my c m.time m.text]) ids last (q ++ [row u v m]) := by
  have hs : Db.new.run I (ops ++ [.addInQueue my c m.time m.text]) = { Db.new.run I ops with inQueue := Sql.insert (Db.new.run I ops).inQueue (row u v m) } := by
    rw [run_one]
    unfold Db.step
    simp only [Db.apply, Db.addInQueue, h.pair]
    rfl
  refine ⟨⟨?_, ?_⟩, ?_, ?_⟩
  · rw [hs]; exact h.fetched.cache
  · rw [hs]; exact h.fetched.account
  · rw [hs]; exact h.pair
  · rw [hs]
    simp only [vals_insert, h.queue]

theorem done_removeCache {my c : Bytes} {u v : Nat} {ops : List Op} {ids : List Bytes} {last : Int} {q : List InEntry} (h : Done I my c u v ops ids last q)
    (id : Bytes) (hid : id ≠ []) (hm : id ∈ ids) : ∃ pre post, ids = pre ++ id :: post ∧ id ∉ pre ∧ Done I my c u v (ops ++ [.removeCache my c id]) (id :: post) last q := by
  cases he : (Db.new.run I ops).removeCache I my c id with
  | error e =>
    exfalso
    unfold Db.removeCache at he
    rw [if_neg hid, h.pair] at he
    simp only at he
    split at he
    · rename_i hn
      have h1 := h.fetched.cache
      simp only [Db.getCache, h.pair] at h1
      injection h1 with h1
      rw [← h1] at hm
      obtain ⟨r, hr, e⟩ := List.mem_map.mp hm
      have h2 := List.mem_filter.mp hr
      have := first_none_iff.mp hn r h2.1
      rw [h2.2] at this
      simp [e] at this
    · cases he
  | ok db' =>
    obtain ⟨pre, post, h1, h2, h3⟩ := (C50_trim_keeps_newer ops rfl my c id he).1
    rw [h.fetched.cache] at h1
    injection h1 with h1
    refine ⟨pre, post, h1, h2, ?_⟩
    have hs : Db.new.run I (ops ++ [.removeCache my c id]) = db' := by
      rw [run_one]
      unfold Db.step
      simp only [Db.apply, he]
    unfold Db.removeCache at he
    rw [if_neg hid, h.pair] at he
    simp only at he
    split at he
    · cases he
    injection he with he
    refine ⟨⟨?_, ?_⟩, ?_, ?_⟩
    · rw [hs]; exact h3
    · rw [hs, ← he]; exact h.fetched.account
    · rw [hs, ← he]; exact h.pair
    · rw [hs, ← he]; exact h.queue

theorem done_last {my c : Bytes} {u v : Nat} {ops : List Op} {ids : List Bytes} {last : Int} {q : List InEntry} (h : Done I my c u v ops ids last q) (t : Int) :
    Done I my c u v (ops ++ [.setAccountLastMsg my c t]) ids t q := by
  have hs : Db.new.run I (ops ++ [.setAccountLastMsg my c t]) =
      { Db.new.run I ops with accounts := update (isAccount u v) (fun a => { a with lastMsgTime := t }) (Db.new.run I ops).accounts } := by
    rw [run_one]
    unfold Db.step
    simp only [Db.apply, Db.setAccountLastMsg, h.pair]
  refine ⟨⟨?_, ?_⟩, ?_, ?_⟩
  · rw [hs]; exact h.fetched.cache
  · rw [hs]
    obtain ⟨a, e, _⟩ := h.fetched.account
    simp only [Db.getAccount, h.pair] at e
    split at e
    · cases e
    rename_i r hr
    have hp2 : ∀ t, ({ Db.new.run I ops with accounts := t } : Db).pair I my c = .ok (u, v) := fun _ => h.pair
    simp only [Db.getAccount, hp2]
    rw [first_update _ _ _ _ fun a _ => by simp only [isAccount], hr]
    simp only [Option.map_some, (first_mem hr).2, if_true]
    exact ⟨_, rfl, rfl⟩
  · rw [hs]; exact h.pair
  · rw [hs]; exact h.queue

theorem fetchOps_append {my c : Bytes} {cache : List Bytes} {new : List Mail} (h : ∀ m ∈ new, m.id ∉ cache) (p : List Mail) :
    fetchOps my c cache (new ++ p) = fetchOps my c cache new ++ fetchOps my c cache p := by
  induction new with
  | nil => rfl
  | cons m l ih =>
    simp only [List.cons_append, fetchOps, if_neg (h m List.mem_cons_self), ih fun x hx => h x (.tail _ hx)]

theorem done_fetchOps {my c : Bytes} {u v : Nat} {ops : List Op} {ids : List Bytes} {last : Int} {q : List InEntry} (h : Done I my c u v ops ids last q)
    (cache : List Bytes) (new : List Mail) (hn : ∀ m ∈ new, m.id ∉ cache ∧ m.id ≠ []) :
    Done I my c u v (ops ++ fetchOps my c cache new) (ids ++ new.map (·.id)) last (q ++ new.map (row u v)) := by
  induction new generalizing ops ids q with
  | nil => simpa [fetchOps] using h
  | cons m l ih =>
    have h1 := hn m List.mem_cons_self
    have h2 := ih (done_addInQueue (done_addCache h m.id h1.2) m) fun x hx => hn x (.tail _ hx)
    simpa [fetchOps, if_neg h1.1] using h2

/-! ### the histories -/

/-- The time of the newest message. -/
def lastOf : List Mail → Int
  | [] => 0
  | m :: _ => m.time

/-- What holds between runs. -/
structure Keeps (I : Ids) (my c : Bytes) (ops : List Op) (box seen new : List Mail) (ids : List Bytes) : Prop where
  split : box = new ++ seen
  fetched : Fetched I my c (Db.new.run I ops) ids (lastOf seen)
  known : ∀ i ∈ ids, ∃ m ∈ seen, m.id = i
  newest : ∀ m l, seen = m :: l → m.id ∈ ids
  order : box.Pairwise fun a b => b.id ≠ a.id ∧ b.time < a.time
  proper : ∀ m ∈ box, m.id ≠ [] ∧ 0 < m.time

/-- The new messages are not in the cache, and a reply of the server starts with them. -/
theorem keeps_listed {my c : Bytes} {ops : List Op} {box seen new : List Mail} {ids : List Bytes} (h : Keeps I my c ops box seen new ids) (l : List Mail)
    (hl : Listed box (lastOf seen) l) : (∀ m ∈ new, m.id ∉ ids ∧ m.id ≠ []) ∧ ∃ p, l = new ++ p ∧ p <+: seen := by
  have hord := h.order
  rw [h.split, List.pairwise_append] at hord
  obtain ⟨o1, o2, o3⟩ := hord
  have hnew : ∀ m ∈ new, m.id ∉ ids ∧ m.id ≠ [] := by
    intro m hm
    refine ⟨fun hi => ?_, (h.proper m (by rw [h.split]; exact List.mem_append_left _ hm)).1⟩
    obtain ⟨m', hm', e⟩ := h.known _ hi
    exact (o3 m hm m' hm').1 e
  -- the reply starts with the new messages
  have hlt : ∀ m ∈ new, lastOf seen < m.time := by
    intro m hm
    cases hs : seen with
    | nil => exact (h.proper m (by rw [h.split]; exact List.mem_append_left _ hm)).2
    | cons s t => exact (o3 m hm s (by rw [hs]; exact List.mem_cons_self)).2
  have hpre : ∃ p, l = new ++ p ∧ p <+: seen := by
    obtain ⟨⟨t, ht⟩, hall⟩ := hl
    have hle : new.length ≤ l.length := by
      rcases Nat.lt_or_ge l.length new.length with hlt' | hge
      · exfalso
        have hm : new[l.length] ∈ l := hall _ (by rw [h.split]; exact List.mem_append_left _ (List.getElem_mem _)) (hlt _ (List.getElem_mem _))
        obtain ⟨j, hj, e⟩ := List.getElem_of_mem hm
        have hb : box[j]'(by rw [← ht, List.length_append]; omega) = l[j] := by
          simp only [← ht]
          exact List.getElem_append_left hj
        have hb' : box[l.length]'(by rw [h.split, List.length_append]; omega) = new[l.length] := by
          simp only [h.split]
          exact List.getElem_append_left hlt'
        have := List.pairwise_iff_getElem.mp h.order j l.length (by rw [← ht, List.length_append]; omega) (by rw [h.split, List.length_append]; omega) hj
        rw [hb, hb', e] at this
        exact this.1 rfl
      · exact hge
    have h1 : new <+: l := by
      apply List.prefix_of_prefix_length_le (l₃ := box)
      · rw [h.split]; exact List.prefix_append _ _
      · exact ⟨t, ht⟩
      · exact hle
    obtain ⟨p, rfl⟩ := h1
    refine ⟨p, rfl, t, ?_⟩
    rw [h.split, List.append_assoc] at ht
    exact List.append_cancel_left ht
  exact ⟨hnew, hpre⟩

/-- A run stores exactly the new messages. -/
theorem keeps_fetch {my c : Bytes} {ops : List Op} {box seen new : List Mail} {ids : List Bytes} (h : Keeps I my c ops box seen new ids) (l : List Mail)
    (hl : Listed box (lastOf seen) l) {u v : Nat} (hp : (Db.new.run I ops).pair I my c = .ok (u, v)) :
    ∃ ids', Done I my c u v (ops ++ fetchRun my c ids l) ids' (lastOf box) (vals (Db.new.run I ops).inQueue ++ new.map (row u v)) ∧
      (∀ i ∈ ids', ∃ m ∈ box, m.id = i) ∧ ∀ m l, box = m :: l → m.id ∈ ids' := by
  obtain ⟨hnew, hpre⟩ := keeps_listed h l hl
  obtain ⟨p, rfl, hps⟩ := hpre
  have d0 : Done I my c u v ops ids (lastOf seen) (vals (Db.new.run I ops).inQueue) := ⟨h.fetched, hp, rfl⟩
  have d1 := done_fetchOps d0 ids new hnew
  -- the rest of the reply
  have d2 : ∃ ids', Done I my c u v (ops ++ fetchOps my c ids (new ++ p)) ids' (lastOf seen) (vals (Db.new.run I ops).inQueue ++ new.map (row u v)) ∧
      (∀ i ∈ ids', i ∈ ids ++ new.map (·.id)) ∧ (∀ m ∈ new, m.id ∈ ids') ∧ ∀ m l, seen = m :: l → m.id ∈ ids' := by
    rw [fetchOps_append fun m hm => (hnew m hm).1]
    cases p with
    | nil =>
      refine ⟨_, by simpa [fetchOps] using d1, fun i hi => hi, fun m hm => List.mem_append_right _ (List.mem_map_of_mem hm), fun m l e => List.mem_append_left _ (h.newest m l e)⟩
    | cons m p' =>
      obtain ⟨s, hs⟩ := hps
      have hmem : m.id ∈ ids := h.newest m _ (by rw [← hs]; rfl)
      have hne : m.id ≠ [] := (h.proper m (by rw [h.split, ← hs]; exact List.mem_append_right _ List.mem_cons_self)).1
      obtain ⟨pre, post, e1, e2, d3⟩ := done_removeCache d1 m.id hne (List.mem_append_left _ hmem)
      rw [List.append_assoc] at d3
      refine ⟨m.id :: post, by simpa [fetchOps, hmem] using d3, ?_, ?_, ?_⟩
      · intro i hi
        rw [e1]
        exact List.mem_append_right _ hi
      · intro x hx
        rcases List.append_eq_append_iff.mp e1 with ⟨a, e3, e4⟩ | ⟨a, e3, e4⟩
        · exfalso
          rw [e3] at e2
          exact e2 (List.mem_append_left _ hmem)
        · cases a with
          | nil =>
            simp only [List.append_nil] at e3
            rw [e3] at hmem
            exact absurd hmem e2
          | cons b a =>
            simp only [List.cons_append, List.cons.injEq] at e4
            rw [e4.2]
            exact .tail _ (List.mem_append_right _ (List.mem_map_of_mem hx))
      · intro m' l' e
        rw [← hs] at e
        simp only [List.cons_append, List.cons.injEq] at e
        rw [e.1]
        exact List.mem_cons_self
  obtain ⟨ids', d2, k1, k2, k3⟩ := d2
  refine ⟨ids', ?_, ?_, ?_⟩
  · unfold fetchRun
    rw [← List.append_assoc]
    cases hnl : new with
    | nil =>
      rw [hnl] at d2
      have hbox : box = seen := by rw [h.split, hnl]; rfl
      have : lastOps my c ids ([] ++ p) = [] := by
        cases p with
        | nil => rfl
        | cons m p' =>
          obtain ⟨s, hs⟩ := hps
          simp only [List.nil_append, lastOps, if_pos (h.newest m _ (by rw [← hs]; rfl))]
      rw [this, List.append_nil, hbox]
      exact d2
    | cons m new' =>
      rw [hnl] at d2
      have h1 := hnew m (by rw [hnl]; exact List.mem_cons_self)
      have h2 := (h.proper m (by rw [h.split, hnl]; exact List.mem_cons_self)).2
      have : lastOps my c ids (m :: new' ++ p) = [.setAccountLastMsg my c m.time] := by
        simp only [List.cons_append, lastOps, if_neg h1.1, if_pos h2]
      rw [this, h.split, hnl]
      exact done_last d2 m.time
  · intro i hi
    rcases List.mem_append.mp (k1 i hi) with hi | hi
    · obtain ⟨m, hm, e⟩ := h.known i hi
      exact ⟨m, by rw [h.split]; exact List.mem_append_right _ hm, e⟩
    · obtain ⟨m, hm, e⟩ := List.mem_map.mp hi
      exact ⟨m, by rw [h.split]; exact List.mem_append_left _ hm, e⟩
  · intro m l e
    rw [h.split] at e
    cases hnl : new with
    | nil =>
      rw [hnl] at e
      exact k3 m l e
    | cons x y =>
      rw [hnl] at e
      simp only [List.cons_append, List.cons.injEq] at e
      rw [← e.1]
      exact k2 x (by rw [hnl]; exact List.mem_cons_self)

theorem history_keeps {my c : Bytes} {ops : List Op} {box seen : List Mail} (h : History I my c ops box seen) : ∃ new ids, Keeps I my c ops box seen new ids := by
  induction h with
  | start ops a h1 h2 h3 => exact ⟨[], [], rfl, ⟨h3, a, h1, h2⟩, nofun, nofun, .nil, nofun⟩
  | arrive ops box seen m _ h1 h2 h3 ih =>
    obtain ⟨new, ids, k⟩ := ih
    refine ⟨m :: new, ids, by rw [k.split]; rfl, k.fetched, k.known, k.newest, List.pairwise_cons.mpr ⟨fun b hb => h3 b hb, k.order⟩, ?_⟩
    intro x hx
    rcases List.mem_cons.mp hx with rfl | hx
    · exact ⟨h1, h2⟩
    · exact k.proper x hx
  | fetch ops box seen a cache l _ h1 h2 h3 ih =>
    obtain ⟨new, ids, k⟩ := ih
    have e1 := k.fetched.cache
    rw [h2] at e1
    injection e1 with e1; subst e1
    obtain ⟨a', ha', hl⟩ := k.fetched.account
    rw [h1] at ha'
    injection ha' with ha'; subst ha'
    rw [hl] at h3
    obtain ⟨u, v, hp⟩ := fetched_pair k.fetched
    obtain ⟨ids', d, k1, k2⟩ := keeps_fetch k l h3 hp
    exact ⟨[], ids', rfl, d.fetched, k1, k2, k.order, k.proper⟩
  | other ops box seen op _ ho ih =>
    obtain ⟨new, ids, k⟩ := ih
    exact ⟨new, ids, k.split, by rw [run_one]; exact fetched_other ops rfl k.fetched op ho, k.known, k.newest, k.order, k.proper⟩

/-! ### C47 -/

/-- **C47** If no run is interrupted, every run appends to the in-queue exactly the messages that
have arrived since the run before: none is lost and none is stored twice. Missing: interrupted
runs, for which the claim is false (`C47_interrupted_loses`). -/
theorem C47_each_once_partial (my c : Bytes) (ops : List Op) (box seen : List Mail) (h : History I my c ops box seen) :
    ∃ new a cache, box = new ++ seen ∧ (Db.new.run I ops).getAccount I my c = .ok a ∧ (Db.new.run I ops).getCache I my c = .ok cache ∧
      ∀ l, Listed box a.lastMsgTime l → ∃ u v, (Db.new.run I ops).pair I my c = .ok (u, v) ∧
        vals (Db.new.run I (ops ++ fetchRun my c cache l)).inQueue = vals (Db.new.run I ops).inQueue ++ new.map fun m => ⟨u, v, m.time, m.text, true⟩ := by
  obtain ⟨new, ids, k⟩ := history_keeps h
  obtain ⟨a, ha, hl⟩ := k.fetched.account
  refine ⟨new, a, ids, k.split, ha, k.fetched.cache, fun l hlist => ?_⟩
  rw [hl] at hlist
  obtain ⟨u, v, hp⟩ := fetched_pair k.fetched
  obtain ⟨ids', d, _⟩ := keeps_fetch k l hlist hp
  exact ⟨u, v, hp, d.queue⟩

theorem fetchOps_length {my c : Bytes} {cache : List Bytes} {new : List Mail} (h : ∀ m ∈ new, m.id ∉ cache) : (fetchOps my c cache new).length = 2 * new.length := by
  induction new with
  | nil => rfl
  | cons m l ih =>
    simp only [fetchOps, if_neg (h m List.mem_cons_self), List.length_cons, ih fun x hx => h x (.tail _ hx)]
    omega

/-- **C47** The full statement fails. Let a run be interrupted at any point after its first
database operation and before its last message is complete: `k` messages have been stored, and
maybe the ID of the next one (`half`). Then the next run stores nothing, although the server still
lists all messages, so that the other ones are lost. -/
theorem C47_interrupted_loses (my c : Bytes) (ops : List Op) (seen new : List Mail) (h : History I my c ops (new ++ seen) seen)
    (a : Account) (cache : List Bytes) (ha : (Db.new.run I ops).getAccount I my c = .ok a) (hc : (Db.new.run I ops).getCache I my c = .ok cache)
    (l : List Mail) (hl : Listed (new ++ seen) a.lastMsgTime l) (k : Nat) (hk : k < new.length) (half : Bool) (hpos : 0 < 2 * k + half.toNat) :
    ∃ u v cache', (Db.new.run I (ops ++ (fetchRun my c cache l).take (2 * k + half.toNat))).getCache I my c = .ok cache' ∧
      ∀ l', Listed (new ++ seen) a.lastMsgTime l' →
        vals (Db.new.run I (ops ++ (fetchRun my c cache l).take (2 * k + half.toNat) ++ fetchRun my c cache' l')).inQueue =
          vals (Db.new.run I ops).inQueue ++ (new.take k).map fun m => ⟨u, v, m.time, m.text, true⟩ := by
  obtain ⟨new', ids, kp⟩ := history_keeps h
  have := List.append_cancel_right kp.split
  subst this
  obtain ⟨a', ha', hlast⟩ := kp.fetched.account
  rw [ha] at ha'
  injection ha' with ha'; subst ha'
  rw [hlast] at hl ⊢
  have hc' := kp.fetched.cache
  rw [hc] at hc'
  injection hc' with hc'; subst hc'
  obtain ⟨u, v, hp⟩ := fetched_pair kp.fetched
  obtain ⟨hnew, p, rfl, hps⟩ := keeps_listed kp l hl
  have hd : new.drop k = new[k] :: new.drop (k + 1) := List.drop_eq_getElem_cons hk
  have hmem : ∀ m ∈ new.take k, m.id ∉ cache ∧ m.id ≠ [] := fun m hm => hnew m (List.mem_of_mem_take hm)
  have hx := hnew new[k] (List.getElem_mem hk)
  -- the operations before the interruption
  have hops : (fetchRun my c cache (new ++ p)).take (2 * k + half.toNat) = fetchOps my c cache (new.take k) ++ (if half then [.addCache my c new[k].id] else []) := by
    have e : new ++ p = new.take k ++ (new[k] :: (new.drop (k + 1) ++ p)) := by
      rw [← List.cons_append, ← hd, ← List.append_assoc, List.take_append_drop]
    have hlen : (fetchOps my c cache (new.take k)).length = 2 * k := by
      rw [fetchOps_length fun m hm => (hmem m hm).1, List.length_take]
      omega
    unfold fetchRun
    rw [e, fetchOps_append fun m hm => (hmem m hm).1, List.append_assoc, List.take_append, hlen]
    rw [List.take_of_length_le (by omega), Nat.add_sub_cancel_left]
    congr 1
    simp only [fetchOps, if_neg hx.1]
    cases half <;> rfl
  rw [hops]
  have d0 : Done I my c u v ops cache (lastOf seen) (vals (Db.new.run I ops).inQueue) := ⟨kp.fetched, hp, rfl⟩
  have d1 := done_fetchOps d0 cache (new.take k) hmem
  have d2 : Done I my c u v (ops ++ (fetchOps my c cache (new.take k) ++ (if half then [.addCache my c new[k].id] else [])))
      (cache ++ (new.take k).map (·.id) ++ (if half then [new[k].id] else [])) (lastOf seen) (vals (Db.new.run I ops).inQueue ++ (new.take k).map (row u v)) := by
    cases half with
    | false => simpa using d1
    | true => simpa using done_addCache d1 new[k].id hx.2
  refine ⟨u, v, _, d2.fetched.cache, fun l' hl' => ?_⟩
  obtain ⟨_, p', rfl, _⟩ := keeps_listed kp l' hl'
  cases new with
  | nil => exact absurd hk (Nat.not_lt_zero _)
  | cons m rest =>
    have hin : m.id ∈ cache ++ ((m :: rest).take k).map (·.id) ++ (if half then [(m :: rest)[k].id] else []) := by
      cases k with
      | zero =>
        have : half = true := by cases half <;> simp_all
        subst this
        exact List.mem_append_right _ (by simp)
      | succ k => exact List.mem_append_left _ (List.mem_append_right _ (by simp))
    have hne := (hnew m List.mem_cons_self).2
    have hr : fetchRun my c (cache ++ ((m :: rest).take k).map (·.id) ++ (if half then [(m :: rest)[k].id] else [])) (m :: rest ++ p') = [.removeCache my c m.id] := by
      simp only [fetchRun, List.cons_append, fetchOps, lastOps, if_pos hin, List.append_nil]
    rw [hr]
    obtain ⟨_, _, _, _, d3⟩ := done_removeCache d2 m.id hne hin
    exact d3.queue

/-! ### examples -/

def fetchI : Ids := ⟨some⟩
def boxMail (n : UInt8) : Mail := ⟨[n], n.toNat, [n, n]⟩
def fetchStart : List Op := [.addNym [1] [1] [], .addContact [1] [2] [2] [] 0, .addAccount [1] [2] [9] [9] [9] 0 0]

/-- Two messages, a run, one more message and a run. -/
theorem fetchHistory : History fetchI [1] [2] (fetchStart ++ fetchRun [1] [2] [] [boxMail 5, boxMail 4]) [boxMail 6, boxMail 5, boxMail 4] [boxMail 5, boxMail 4] := by
  refine .arrive _ _ _ _ (.fetch _ _ [] _ _ _ (.arrive _ _ _ _ (.arrive _ _ _ _ (.start _ _ rfl rfl rfl) ?_ ?_ ?_) ?_ ?_ ?_) rfl rfl ?_) ?_ ?_ ?_
  all_goals first
    | exact ⟨⟨[], rfl⟩, fun _ h _ => h⟩
    | decide

example : ∃ a cache, (Db.new.run fetchI (fetchStart ++ fetchRun [1] [2] [] [boxMail 5, boxMail 4])).getAccount fetchI [1] [2] = .ok a ∧
    (Db.new.run fetchI (fetchStart ++ fetchRun [1] [2] [] [boxMail 5, boxMail 4])).getCache fetchI [1] [2] = .ok cache ∧ a.lastMsgTime = 5 ∧ cache = [[5], [4]] ∧
    Listed [boxMail 6, boxMail 5, boxMail 4] a.lastMsgTime [boxMail 6, boxMail 5] :=
  ⟨_, _, rfl, rfl, rfl, rfl, ⟨[boxMail 4], rfl⟩, by decide⟩

end Verif.Ctrl

/-
Deleting nyms, and who can see a message.
-/
import Verif.Msgdb.Delivery

namespace Verif.Msgdb
open Verif.Sql

variable {I : Ids} {db db' : Db}

/-! ## C97: deleting a nym -/

theorem first_filter {α : Type} {t : Table α} {p : α → Bool} {q : Nat × α → Bool} (h : ∀ r ∈ t, p r.2 = true → q r = true) :
    first p (t.filter q) = first p t := by
  induction t with
  | nil => rfl
  | cons r t ih =>
    have ih := ih fun r hr => h r (List.mem_cons_of_mem _ hr)
    unfold first at ih ⊢
    rw [List.filter_cons]
    cases hp : p r.2 with
    | true => rw [h r (.head _) hp]; simp [hp]
    | false =>
      split
      · simp only [List.find?_cons, hp]; exact ih
      · simp only [List.find?_cons, hp]; exact ih

theorem byId_filter {α : Type} {t : Table α} {i : Nat} {q : Nat × α → Bool} (h : ∀ r ∈ t, r.1 = i → q r = true) :
    byId i (t.filter q) = byId i t := by
  induction t with
  | nil => rfl
  | cons r t ih =>
    have ih := ih fun r hr => h r (List.mem_cons_of_mem _ hr)
    unfold byId at ih ⊢
    rw [List.filter_cons]
    by_cases hp : r.1 = i
    · rw [h r (.head _) hp]; simp [hp]
    · have hp' : (r.1 == i) = false := by simpa using hp
      split
      · simp only [List.find?_cons, hp']; exact ih
      · simp only [List.find?_cons, hp']; exact ih

/-- **C97** A nym that exists can be deleted. -/
theorem C97_delete_succeeds (ops : List Op) (hdb : db = Db.new.run I ops) (m u f : Bytes)
    (h : db.getNym I m = .ok (u, f)) (hu : u ≠ []) : ∃ db', db.delNym I m = .ok db' := by
  have hw : WF I db := by rw [hdb]; exact wf_reach ops
  unfold Db.getNym at h
  unfold Db.delNym
  split at h
  · cases h
  rename_i hm
  rw [if_neg hm]
  split at h
  · injection h with h
    exact absurd (congrArg Prod.fst h).symm hu
  · rename_i r hf
    injection h with h
    rw [hf]
    simp only
    rw [if_neg (by rw [show r.2.unmapped = u from congrArg Prod.fst h]; exact hu)]
    have : db.blocksDelete r.1 = false := by
      unfold Db.blocksDelete
      rw [List.any_eq_false]
      intro x hx hc
      simp only [Bool.and_eq_true, List.any_eq_true, beq_iff_eq, bne_iff_ne] at hc
      obtain ⟨h1, c, hc, e1, e2⟩ := hc
      obtain ⟨k, hk, ek⟩ := hw.messagePeer x hx
      have := sorted_unique hw.contacts hk hc (by simp only; rw [e1])
      rw [← this] at e2
      exact h1 (by rw [← ek]; exact e2)
    rw [this]
    exact ⟨_, rfl⟩

/-- What a nym can look up in the database. For a single message the kind of error is left out:
the number of a message of another nym is an error in any case. -/
structure View where
  nym : Except Err (Bytes × Bytes)
  contacts : Bool → Except Err (List Bytes)
  contact : Bytes → Except Err (Bytes × Bytes × Int)
  accounts : Except Err (List Bytes)
  account : Bytes → Except Err Account
  messages : Except Err (Table Message)
  message : Nat → Option Shown
  undelivered : Except Err (Option Undelivered)
  outQueue : Except Err (Option (Nat × OutEntry))
  cache : Bytes → Except Err (List Bytes)
  upkeep : Except Err Int × Except Err Int

/-- The results of all queries of a nym. -/
def view (I : Ids) (db : Db) (m : Bytes) : View where
  nym := db.getNym I m
  contacts := db.getContacts I m
  contact := db.getContact I m
  accounts := db.getAccounts I m
  account := db.getAccount I m
  messages := db.getMsgIDs I m
  message := fun i => (db.getMessage I m i).toOption
  undelivered := db.getUndelivered I m
  outQueue := db.getOutQueue I m
  cache := db.getCache I m
  upkeep := (db.getUpkeepAll I m, db.getUpkeepAccounts I m)

section other
variable (hw : WF I db) {u : Nat} {n : Nym} (hn : (u, n) ∈ db.nyms) {m' : Bytes} (hne : m' ≠ n.mapped)
include hw hn hne

theorem cascade_first_nym : first (fun k : Nym => k.mapped == m') (db.cascade u).nyms = first (fun k : Nym => k.mapped == m') db.nyms := by
  simp only [Db.cascade, deleteId]
  refine first_filter fun r hr hp => ?_
  have : r.1 ≠ u := fun e => by
    have := sorted_unique hw.nyms hr hn e
    rw [this] at hp
    exact hne (eq_of_beq hp).symm
  simpa using this

theorem cascade_nymUID : (db.cascade u).nymUID m' = db.nymUID m' := by
  unfold Db.nymUID
  rw [cascade_first_nym hw hn hne]

theorem nymUID_ne {v : Nat} (hv : db.nymUID m' = some v) : v ≠ u := by
  rintro rfl
  obtain ⟨k, hk, e⟩ := nymUID_some hv
  have := sorted_unique hw.nyms hk hn rfl
  injection this with _ this
  exact hne (by rw [← e, this])

omit hw hn hne in
theorem cascade_first_contact {v : Nat} (hv : v ≠ u) (id : Bytes) :
    first (isContact v id) (db.cascade u).contacts = first (isContact v id) db.contacts := by
  simp only [Db.cascade, delete]
  refine first_filter fun r _ hp => ?_
  simp only [isContact, Bool.and_eq_true, beq_iff_eq] at hp
  simpa [hp.1] using hv

omit hn hne in
theorem cascade_contactMapped {v : Nat} (hv : v ≠ u) (c : Nat) : (db.cascade u).contactMapped v c = db.contactMapped v c := by
  unfold Db.contactMapped
  cases hb : byId c db.contacts with
  | none =>
    have : byId c (db.cascade u).contacts = none := by
      simp only [Db.cascade]
      cases hb' : byId c (delete (fun c : Contact => c.myID == u) db.contacts) with
      | none => rfl
      | some k => exact absurd (mem_delete.mp (byId_some hb')).1 (byId_none hb k)
    rw [this]
  | some k =>
    by_cases hk : k.myID = u
    · have h1 : byId c (db.cascade u).contacts = none := by
        simp only [Db.cascade]
        cases hb' : byId c (delete (fun c : Contact => c.myID == u) db.contacts) with
        | none => rfl
        | some k' =>
          obtain ⟨x1, x2⟩ := mem_delete.mp (byId_some hb')
          have := sorted_unique hw.contacts x1 (byId_some hb) rfl
          injection this with _ this
          subst this
          simp [hk] at x2
      rw [h1]
      have : ¬ k.myID = v := by rw [hk]; exact Ne.symm hv
      simp [this]
    · have h1 : byId c (db.cascade u).contacts = some k := by
        simp only [Db.cascade]
        exact byId_mem (sorted_delete hw.contacts _) (mem_delete.mpr ⟨byId_some hb, by simpa using hk⟩)
      rw [h1]

omit hn hne in
theorem cascade_contactNames {v : Nat} (hv : v ≠ u) (l : List Nat) : (db.cascade u).contactNames v l = db.contactNames v l := by
  induction l with
  | nil => rfl
  | cons c l ih => simp only [Db.contactNames, cascade_contactMapped hw hv, ih]

omit hw hn hne in
theorem cascade_pair {c : Bytes} {m' : Bytes} (h1 : (db.cascade u).nymUID m' = db.nymUID m') (h2 : ∀ v, db.nymUID m' = some v → v ≠ u) :
    (db.cascade u).pair I m' c = db.pair I m' c := by
  unfold Db.pair
  rw [h1]
  cases hv : db.nymUID m' with
  | none => rfl
  | some v =>
    simp only [Db.contactUID, cascade_first_contact (h2 v hv)]

/-- The queries of another nym give the same results. -/
theorem view_cascade (hd : Del db.messages db.outQueue) : view I (db.cascade u) m' = view I db m' := by
  have h1 := cascade_first_nym hw hn hne
  have h2 := cascade_nymUID hw hn hne
  have h3 := fun v => nymUID_ne hw hn hne (v := v)
  have hp : ∀ c, (db.cascade u).pair I m' c = db.pair I m' c := fun c => cascade_pair h2 h3
  have hnym : (db.cascade u).getNym I m' = db.getNym I m' := by unfold Db.getNym; rw [h1]
  have hcon : ∀ id, (db.cascade u).getContact I m' id = db.getContact I m' id := fun id => by
    unfold Db.getContact
    rw [h2]
    cases hv : db.nymUID m' with
    | none => rfl
    | some v => simp only [cascade_first_contact (h3 v hv)]
  unfold view
  congr 1
  · funext b
    unfold Db.getContacts
    rw [h2]
    cases hv : db.nymUID m' with
    | none => rfl
    | some v =>
      simp only [Db.cascade, delete]
      rw [select_filter_other]
      intro r _ hr
      simp only [Bool.and_eq_true, beq_iff_eq] at hr
      simpa [hr.1] using h3 v hv
  · funext id; exact hcon id
  · unfold Db.getAccounts
    rw [h2]
    cases hv : db.nymUID m' with
    | none => rfl
    | some v =>
      have : select (fun a : Account => a.myID == v) (db.cascade u).accounts = select (fun a : Account => a.myID == v) db.accounts := by
        simp only [Db.cascade, delete]
        refine select_filter_other fun r _ hr => ?_
        simp only [beq_iff_eq] at hr
        simpa [hr] using h3 v hv
      simp only [this, cascade_contactNames hw (h3 v hv)]
  · funext c
    unfold Db.getAccount
    rw [hp c]
    cases hr : db.pair I m' c with
    | error e => rfl
    | ok r =>
      obtain ⟨v, x⟩ := r
      have hv := h3 v (pair_ok hr).1
      have : first (isAccount v x) (db.cascade u).accounts = first (isAccount v x) db.accounts := by
        simp only [Db.cascade, delete]
        refine first_filter fun r _ hr => ?_
        simp only [isAccount, Bool.and_eq_true, beq_iff_eq] at hr
        simpa [hr.1] using hv
      simp only [this]
  · unfold Db.getMsgIDs
    rw [h2]
    cases hv : db.nymUID m' with
    | none => rfl
    | some v =>
      simp only [Db.cascade, delete]
      rw [select_filter_other]
      intro r _ hr
      simp only [beq_iff_eq] at hr
      simpa [hr] using h3 v hv
  · funext i
    have hself : ∀ k : Message, k.self ≠ u → byId k.self (db.cascade u).nyms = byId k.self db.nyms := fun k hk => by
      simp only [Db.cascade, deleteId]
      exact byId_filter fun r _ e => by rw [e]; simpa using hk
    unfold Db.getMessage
    split
    · rfl
    · cases hb : byId i db.messages with
      | none =>
        have : byId i (db.cascade u).messages = none := by
          simp only [Db.cascade]
          cases hb' : byId i (delete (fun m : Message => m.self == u) db.messages) with
          | none => rfl
          | some k => exact absurd (mem_delete.mp (byId_some hb')).1 (byId_none hb k)
        rw [this]
      | some k =>
        by_cases hk : k.self = u
        · have : byId i (db.cascade u).messages = none := by
            simp only [Db.cascade]
            cases hb' : byId i (delete (fun m : Message => m.self == u) db.messages) with
            | none => rfl
            | some k' =>
              obtain ⟨x1, x2⟩ := mem_delete.mp (byId_some hb')
              have := sorted_unique hw.messages x1 (byId_some hb) rfl
              injection this with _ this
              subst this
              simp [hk] at x2
          rw [this]
          simp only [hk, byId_mem hw.nyms hn]
          rw [if_pos hne]
          rfl
        · have : byId i (db.cascade u).messages = some k := by
            simp only [Db.cascade]
            exact byId_mem (sorted_delete hw.messages _) (mem_delete.mpr ⟨byId_some hb, by simpa using hk⟩)
          rw [this]
          simp only [hself k hk]
          cases byId k.self db.nyms with
          | none => rfl
          | some n' =>
            simp only
            split
            · rfl
            · rename_i he
              have he : m' = n'.mapped := Decidable.not_not.mp he
              rw [cascade_contactMapped hw hk]
              cases db.contactMapped k.self k.peer with
              | none => rfl
              | some c =>
                simp only [Db.showMessage, Db.showNym, Db.showContact]
                rw [← he, hnym, hcon]
  · unfold Db.getUndelivered
    rw [h2]
    cases hv : db.nymUID m' with
    | none => rfl
    | some v =>
      have : firstAsc (fun m : Message => m.self == v && m.toSend) (db.cascade u).messages = firstAsc (fun m : Message => m.self == v && m.toSend) db.messages := by
        rw [firstAsc_eq (wf_cascade hw u).messages, firstAsc_eq hw.messages]
        simp only [Db.cascade, delete]
        refine first_filter fun r _ hr => ?_
        simp only [Bool.and_eq_true, beq_iff_eq] at hr
        simpa [hr.1] using h3 v hv
      simp only [this, cascade_contactMapped hw (h3 v hv)]
  · unfold Db.getOutQueue
    rw [h2]
    cases hv : db.nymUID m' with
    | none => rfl
    | some v =>
      have : firstAsc (fun o : OutEntry => o.self == v && !o.resend) (db.cascade u).outQueue = firstAsc (fun o : OutEntry => o.self == v && !o.resend) db.outQueue := by
        rw [firstAsc_eq (wf_cascade hw u).outQueue, firstAsc_eq hw.outQueue]
        simp only [Db.cascade, delete]
        refine first_filter fun r hr hp => ?_
        simp only [Bool.and_eq_true, beq_iff_eq] at hp
        obtain ⟨k, hk, ek⟩ := hd.own r hr
        have hc : ((select (fun m : Message => m.self == u) db.messages).map Prod.fst).contains r.2.msgID = false := by
          rw [Bool.eq_false_iff]
          intro hc
          obtain ⟨x, hx, e⟩ := List.mem_map.mp (List.contains_iff_mem.mp hc)
          obtain ⟨x1, x2⟩ := List.mem_filter.mp hx
          have := sorted_unique hw.messages x1 hk e
          rw [this] at x2
          exact h3 v hv (by rw [← hp.1, ← ek]; exact eq_of_beq x2)
        have hs : (r.2.self == u) = false := by rw [hp.1]; simpa using h3 v hv
        simp only [hs, hc]; rfl
      simp only [this]
  · funext c
    unfold Db.getCache
    rw [hp c]
    cases hr : db.pair I m' c with
    | error e => rfl
    | ok r =>
      obtain ⟨v, x⟩ := r
      have hv := h3 v (pair_ok hr).1
      have : select (isCached v x) (db.cascade u).cache = select (isCached v x) db.cache := by
        simp only [Db.cascade, delete]
        refine select_filter_other fun r _ hr => ?_
        simp only [isCached, Bool.and_eq_true, beq_iff_eq] at hr
        simpa [hr.1] using hv
      simp only [this]
  · unfold Db.getUpkeepAll Db.getUpkeepAccounts
    rw [h1]

end other

/-- **C97** Deleting a nym changes nothing another nym can look up. -/
theorem C97_others_unchanged (ops : List Op) (hops : DisciplinedRun I Db.new ops) (hdb : db = Db.new.run I ops) (m m' : Bytes) (hne : m' ≠ m)
    (h : db.delNym I m = .ok db') : view I db' m' = view I db m' := by
  have hw : WF I db := by rw [hdb]; exact wf_reach ops
  have hd : Del db.messages db.outQueue := by rw [hdb]; exact del_run wf_new del_new ops hops
  obtain ⟨u, n, hn, e, rfl⟩ := delNym_ok h
  exact view_cascade hw hn (by rw [e]; exact hne) hd

/-- **C97** After deleting a nym nothing of it is left: its queries find no nym, and if a nym of
that name is created again it has no contacts, accounts, messages, queue entries and cached IDs. -/
theorem C97_nothing_left (ops : List Op) (hdb : db = Db.new.run I ops) (m : Bytes) (h : db.delNym I m = .ok db')
    (u f : Bytes) (db2 : Db) (h2 : db'.addNym I m u f = .ok db2) :
    db'.getNym I m = .ok ([], []) ∧
    (∀ b, db'.getContacts I m b = .error .noRows) ∧ db'.getAccounts I m = .error .noRows ∧ db'.getMsgIDs I m = .error .noRows ∧
    (∀ b, db2.getContacts I m b = .ok []) ∧ db2.getAccounts I m = .ok [] ∧ db2.getMsgIDs I m = .ok [] ∧
    db2.getOutQueue I m = .ok none ∧ db2.getUndelivered I m = .ok none ∧ db2.getCache I m [] = .ok [] := by
  have hw : WF I db := by rw [hdb]; exact wf_reach ops
  obtain ⟨v, n, hn, e, rfl⟩ := delNym_ok h
  have hw' := wf_cascade hw v
  have hm : ¬ I.isMapped m = false := by
    have := (hw.nymFits _ hn).1
    simp only [e] at this
    simp [this]
  have hf : first (fun k : Nym => k.mapped == m) (db.cascade v).nyms = none := first_none_iff.mpr fun r hr => by
    simp only [Db.cascade] at hr
    obtain ⟨h1, h2⟩ := mem_deleteId.mp hr
    rw [beq_eq_false_iff_ne]
    intro e'
    exact h2 (congrArg Prod.fst (hw.nymUnique r h1 _ hn (by rw [e', e])))
  have hu : (db.cascade v).nymUID m = none := by unfold Db.nymUID; rw [hf]; rfl
  have hdb2 : db2 = { db.cascade v with nyms := insert (db.cascade v).nyms ⟨m, u, f, 0, 0⟩ } := by
    unfold Db.addNym at h2
    have hs : (select (fun n : Nym => n.mapped == m) (db.cascade v).nyms).length = 0 := select_nil_iff.mpr (first_none_iff.mp hf)
    repeat' split at h2
    all_goals first
      | cases h2; done
      | (injection h2 with h2; exact h2.symm)
      | contradiction
  have hu2 : db2.nymUID m = some (nextId (db.cascade v).nyms) := by
    rw [hdb2]
    unfold Db.nymUID
    simp only
    rw [first_insert, hf]
    simp
  -- the number of the new nym is not in use
  have fresh : ∀ x, HasNym (db.cascade v) x → x ≠ nextId (db.cascade v).nyms := fun x ⟨k, hk⟩ => by
    have := lt_nextId _ hk
    simp only at this
    omega
  have hne : ∀ x, HasNym (db.cascade v) x → (x == nextId (db.cascade v).nyms) = false := fun x hx => by simpa using fresh x hx
  have e1 : db2.contacts = (db.cascade v).contacts := by rw [hdb2]
  have e2 : db2.accounts = (db.cascade v).accounts := by rw [hdb2]
  have e3 : db2.messages = (db.cascade v).messages := by rw [hdb2]
  have e4 : db2.outQueue = (db.cascade v).outQueue := by rw [hdb2]
  have e5 : db2.cache = (db.cascade v).cache := by rw [hdb2]
  have sel : ∀ {α : Type} {t : Table α} {p : α → Bool}, (∀ r ∈ t, p r.2 = false) → select p t = [] := fun h =>
    List.length_eq_zero_iff.mp (select_nil_iff.mpr h)
  refine ⟨?_, ?_, ?_, ?_, ?_, ?_, ?_, ?_, ?_, ?_⟩
  · unfold Db.getNym; rw [if_neg hm, hf]
  · intro b; unfold Db.getContacts; rw [if_neg hm, hu]
  · unfold Db.getAccounts; rw [if_neg hm, hu]
  · unfold Db.getMsgIDs; rw [if_neg hm, hu]
  · intro b
    unfold Db.getContacts
    rw [if_neg hm, hu2, e1]
    simp only
    rw [sel]
    · rfl
    · intro r hr; simp only [hne _ (hw'.contactNym r hr), Bool.false_and]
  · unfold Db.getAccounts
    rw [if_neg hm, hu2, e2]
    simp only
    rw [sel fun r hr => hne _ (hw'.accountNym r hr)]
    rfl
  · unfold Db.getMsgIDs
    rw [if_neg hm, hu2, e3]
    simp only
    rw [sel fun r hr => hne _ (hw'.messageNym r hr)]
  · unfold Db.getOutQueue
    rw [if_neg hm, hu2, e4]
    simp only
    rw [firstAsc_eq hw'.outQueue, first_none_iff.mpr fun r hr => by simp only [hne _ (hw'.outNym r hr), Bool.false_and]]
  · unfold Db.getUndelivered
    rw [if_neg hm, hu2, e3]
    simp only
    rw [firstAsc_eq hw'.messages, first_none_iff.mpr fun r hr => by simp only [hne _ (hw'.messageNym r hr), Bool.false_and]]
  · unfold Db.getCache Db.pair
    rw [if_neg hm, if_neg (fun h => h.1 rfl), hu2, e5]
    simp only [if_true]
    rw [sel]
    · rfl
    · intro r hr; simp only [isCached, hne _ (hw'.cacheNym r hr), Bool.false_and]

/-- Two nyms with a contact and a message each. -/
def twoNyms : List Op :=
  [.addNym [1] [1] [], .addNym [2] [2] [], .addContact [1] [2] [2] [] 0, .addContact [2] [1] [1] [] 0, .addMessage [1] [2] 5 true [7] false 0 0,
    .addMessage [2] [1] 5 true [8] false 0 0, .addOutQueue [2] 2 [9] [3] 0 0]

example : ∃ db', (Db.new.run idI twoNyms).delNym idI [1] = .ok db' ∧ (view idI db' [2]).messages = .ok [(2, ⟨2, 2, true, false, false, [2], [1], 5, [8], [8], false, 0, 0, false⟩)] :=
  ⟨_, rfl, rfl⟩

example : DisciplinedRun idI Db.new twoNyms := ⟨trivial, trivial, trivial, trivial, trivial, trivial, ⟨_, .tail _ (.head _), rfl, rfl⟩, trivial⟩

/-! ## C98: messages belong to their nym -/

theorem getMsgIDs_mem {my : Bytes} {t : Table Message} (h : db.getMsgIDs I my = .ok t) {r : Nat × Message} :
    r ∈ t ↔ r ∈ db.messages ∧ db.nymUID my = some r.2.self := by
  unfold Db.getMsgIDs at h
  split at h
  · cases h
  split at h
  · cases h
  rename_i u hu
  injection h with h
  subst h
  rw [hu]
  simp only [select, List.mem_filter, beq_iff_eq, Option.some.injEq]
  exact ⟨fun h => ⟨h.1, h.2.symm⟩, fun h => ⟨h.1, h.2.symm⟩⟩

/-- **C98** Only the messages in the list of a nym can be read under its name, and what is read is
the stored text and date. -/
theorem C98_read_own (ops : List Op) (hdb : db = Db.new.run I ops) (my : Bytes) (n : Nat) (x : Shown) (h : db.getMessage I my n = .ok x) :
    ∃ t m, db.getMsgIDs I my = .ok t ∧ (n, m) ∈ t ∧ x.msg = m.message ∧ x.date = m.date := by
  have hw : WF I db := by rw [hdb]; exact wf_reach ops
  unfold Db.getMessage at h
  split at h
  · cases h
  rename_i hm
  split at h
  · cases h
  rename_i k hk
  split at h
  · cases h
  rename_i nym hn
  split at h
  · cases h
  rename_i he
  have he : my = nym.mapped := Decidable.not_not.mp he
  split at h
  · cases h
  have hu : db.nymUID my = some k.self := by rw [he]; exact nymUID_mem hw (byId_some hn)
  have ht : db.getMsgIDs I my = .ok (select (fun m : Message => m.self == k.self) db.messages) := by
    unfold Db.getMsgIDs
    rw [if_neg hm, hu]
  refine ⟨_, k, ht, (getMsgIDs_mem ht).mpr ⟨byId_some hk, hu⟩, ?_⟩
  unfold Db.showMessage at h
  split at h
  · injection h with h; subst h; exact ⟨rfl, rfl⟩
  · cases h
  · cases h

/-- Contact types are valid in every operation. -/
def ValidType : Op → Prop
  | .addContact _ _ _ _ ty => ty = 0 ∨ ty = 1 ∨ ty = 2
  | _ => True

def Valid (k : Contact) : Prop := k.blocked = 0 ∨ k.blocked = 1 ∨ k.blocked = 2

theorem valid_step (h : ∀ r ∈ db.contacts, Valid r.2) (op : Op) (hop : ValidType op) : ∀ r ∈ (db.step I op).contacts, Valid r.2 := by
  unfold Db.step
  cases he : db.apply I op with
  | error e => exact h
  | ok d =>
    simp only
    cases op with
    | addContact my m u f ty =>
      simp only [Db.apply, Db.addContact] at he
      repeat' split at he
      all_goals first
        | cases he; done
        | skip
      · injection he with he; subst he
        intro r hr
        rcases mem_insert.mp hr with hr | rfl
        · exact h r hr
        · exact hop
      · injection he with he; subst he
        intro r hr
        dsimp only at hr
        obtain ⟨a, ha, e | ⟨_, e⟩⟩ := of_update hr
        · rw [e]; exact h _ ha
        · rw [e]; exact hop
    | removeContact my c =>
      simp only [Db.apply, Db.removeContact] at he
      repeat' split at he
      all_goals first
        | cases he; done
        | skip
      injection he with he; subst he
      intro r hr
      dsimp only at hr
      obtain ⟨a, ha, e | ⟨_, e⟩⟩ := of_update hr
      · rw [e]; exact h _ ha
      · rw [e]; exact .inr (.inl rfl)
    | delNym m =>
      obtain ⟨u, n, _, _, rfl⟩ := delNym_ok he
      intro r hr
      simp only [Db.cascade] at hr
      exact h r (mem_delete.mp hr).1
    | _ =>
      simp only [Db.apply, Db.addValue, Db.addNym, Db.setUpkeepAll, Db.setUpkeepAccounts,
        Db.addAccount, Db.setAccountTime, Db.setAccountLastMsg, Db.addMessage, Db.readMessage, Db.delMessage, Db.addOutQueue,
        Db.setOutQueue, Db.removeOutQueue, Db.retractOutQueue, Db.setResend, Db.clearResend, Db.addInQueue, Db.setInQueue,
        Db.removeInQueue, Db.delInQueue, Db.addCache, Db.removeCache] at he
      repeat' split at he
      all_goals first
        | cases he; done
        | (injection he with he; subst he; exact h)

theorem valid_run (h : ∀ r ∈ db.contacts, Valid r.2) (ops : List Op) (hops : ∀ op ∈ ops, ValidType op) : ∀ r ∈ (db.run I ops).contacts, Valid r.2 := by
  induction ops generalizing db with
  | nil => exact h
  | cons op ops ih => exact ih (valid_step h op (hops op (.head _))) fun o ho => hops o (List.mem_cons_of_mem _ ho)

/-- **C98** Every message in the list of a nym can be read. -/
theorem C98_listed_readable (ops : List Op) (hops : ∀ op ∈ ops, ValidType op) (hdb : db = Db.new.run I ops) (my : Bytes) (t : Table Message)
    (h : db.getMsgIDs I my = .ok t) (n : Nat) (m : Message) (hm : (n, m) ∈ t) :
    ∃ x, db.getMessage I my n = .ok x ∧ x.msg = m.message ∧ x.date = m.date := by
  have hw : WF I db := by rw [hdb]; exact wf_reach ops
  have hv : ∀ r ∈ db.contacts, Valid r.2 := by rw [hdb]; exact valid_run (db := Db.new) (fun r hr => nomatch hr) ops hops
  obtain ⟨h1, h2⟩ := (getMsgIDs_mem h).mp hm
  have hmy : ¬ I.isMapped my = false := by intro hc; unfold Db.getMsgIDs at h; rw [if_pos hc] at h; cases h
  obtain ⟨nym, hn, en⟩ := nymUID_some h2
  obtain ⟨k, hk, ek⟩ := hw.messagePeer _ h1
  simp only at hk ek hn
  unfold Db.getMessage
  rw [if_neg hmy, byId_mem hw.messages h1]
  simp only [byId_mem hw.nyms hn]
  rw [if_neg (by rw [en]; simp)]
  have hc := contactMapped_mem hw hk
  rw [ek] at hc
  rw [hc]
  simp only
  have hg : ∃ y, db.getNym I nym.mapped = .ok y := by
    unfold Db.getNym
    rw [if_neg (by rw [en]; exact hmy)]
    cases first (fun n : Nym => n.mapped == nym.mapped) db.nyms <;> exact ⟨_, rfl⟩
  have hcc : ∃ y, db.getContact I nym.mapped k.mapped = .ok y := by
    unfold Db.getContact
    have := (hw.contactFits _ hk).1
    simp only at this
    rw [if_neg (by rw [en]; exact hmy), if_neg (by simp [this]), en, h2]
    have hf := first_contact hw hk
    rw [ek] at hf
    simp only [hf]
    rw [if_pos (show k.blocked = 0 ∨ k.blocked = 1 ∨ k.blocked = 2 from hv _ hk)]
    exact ⟨_, rfl⟩
  obtain ⟨y, hy⟩ := hg
  obtain ⟨z, hz⟩ := hcc
  unfold Db.showMessage Db.showNym Db.showContact
  rw [hy, hz]
  exact ⟨_, rfl, rfl, rfl⟩

/-- **C98** A nym can delete exactly the messages in its list, and deleting one changes no other
message. -/
theorem C98_delete_own (ops : List Op) (hdb : db = Db.new.run I ops) (my : Bytes) (t : Table Message) (h : db.getMsgIDs I my = .ok t) (n : Nat) :
    ((∃ db', db.delMessage I my n = .ok db') ↔ ∃ m, (n, m) ∈ t) ∧
    ∀ db', db.delMessage I my n = .ok db' → ∀ r, r ∈ db'.messages ↔ r ∈ db.messages ∧ r.1 ≠ n := by
  have hw : WF I db := by rw [hdb]; exact wf_reach ops
  have hmy : ¬ I.isMapped my = false := by intro hc; unfold Db.getMsgIDs at h; rw [if_pos hc] at h; cases h
  have hu : ∃ u, db.nymUID my = some u := by
    cases hu : db.nymUID my with
    | none => unfold Db.getMsgIDs at h; rw [if_neg hmy, hu] at h; cases h
    | some u => exact ⟨u, rfl⟩
  obtain ⟨u, hu⟩ := hu
  unfold Db.delMessage
  rw [if_neg hmy, hu]
  simp only
  cases hb : byId n db.messages with
  | none =>
    refine ⟨⟨fun ⟨_, h⟩ => (nomatch h), fun ⟨m, hm⟩ => absurd ((getMsgIDs_mem h).mp hm).1 (byId_none hb m)⟩, nofun⟩
  | some m =>
    simp only
    by_cases hs : m.self = u
    · rw [if_pos hs]
      refine ⟨⟨fun _ => ⟨m, (getMsgIDs_mem h).mpr ⟨byId_some hb, by rw [hu]; simp [hs]⟩⟩, fun _ => ⟨_, rfl⟩⟩, ?_⟩
      intro db' he r
      injection he with he
      subst he
      exact mem_deleteId
    · rw [if_neg hs]
      refine ⟨⟨fun ⟨_, h⟩ => (nomatch h), fun ⟨m', hm⟩ => ?_⟩, nofun⟩
      obtain ⟨h1, h2⟩ := (getMsgIDs_mem h).mp hm
      have := sorted_unique hw.messages h1 (byId_some hb) rfl
      injection this with _ this
      subst this
      rw [hu] at h2
      exact absurd (Option.some.inj h2).symm hs

example : (∃ x, (Db.new.run idI twoNyms).getMessage idI [1] 1 = .ok x ∧ x.msg = [7]) ∧ (Db.new.run idI twoNyms).getMessage idI [1] 2 = .error .unknown ∧
    (Db.new.run idI twoNyms).delMessage idI [1] 2 = .error .unknown := ⟨⟨_, rfl, rfl⟩, rfl, rfl⟩

/-- **C98** does not hold for marking as read: the number of another nym's message is accepted. The
claim is therefore stated for reading and deleting only. -/
theorem C98_read_mark_unchecked : ∃ m, (2, m) ∈ ((Db.new.run idI twoNyms).readMessage 2).messages ∧ m.read = true := ⟨_, .tail _ (.head _), rfl⟩

end Verif.Msgdb

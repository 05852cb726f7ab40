/-
The contact commands of the engine (ctrlengine/contact.go:198-374) and adding a message
(ctrlengine/msg.go:106-194).
-/
import Verif.Msgdb.Props

namespace Verif.Ctrl
open Verif.Sql Verif.Msgdb

variable {I : Ids}

/-- `add` (contact.go:198-223). -/
def add (I : Ids) (db : Db) (id contact fullName : Bytes) (type : Int) : Except Err Db :=
  match I.map contact with
  | none => .error .notMapped
  | some cm =>
    match db.getContact I id cm with
    | .error e => .error e
    | .ok (u, prev, _) => db.addContact I id cm contact (if u ≠ [] ∧ fullName = [] then prev else fullName) type

/-- The part of `contactAdd` after the mapping (contact.go:254-277). The variables `fullName` and
`contactType` are assigned by the short variable declaration in line 255, so that the arguments are
lost. `fetched` tells whether `mutecryptAddContact` succeeds. -/
def contactAddMapped (I : Ids) (db : Db) (idM cM : Bytes) (fetched : Bool) : Except Err Db :=
  match db.getContact I idM cM with
  | .error e => .error e
  | .ok (u, fullName, type) =>
    if u ≠ [] then
      if type ≠ 0 then db.addContact I idM cM u fullName 0 else .ok db
    else if fetched then add I db idM cM fullName type
    else .error .unknown

/-- `contactAdd` (contact.go:240-278). -/
def contactAdd (I : Ids) (db : Db) (id contact _fullName : Bytes) (_type : Int) (fetched : Bool) : Except Err Db :=
  match I.map id, I.map contact with
  | some idM, some cM => contactAddMapped I db idM cM fetched
  | _, _ => .error .notMapped

/-- `contactEdit` (contact.go:280-302). -/
def contactEdit (I : Ids) (db : Db) (id contact fullName : Bytes) : Except Err Db :=
  match I.map id, I.map contact with
  | some idM, some cM =>
    match db.getContact I idM cM with
    | .error e => .error e
    | .ok (u, _, type) => if u = [] then .error .unknown else db.addContact I idM cM contact fullName type
  | _, _ => .error .notMapped

/-- `contactRemove` (contact.go:304-315). -/
def contactRemove (I : Ids) (db : Db) (id contact : Bytes) : Except Err Db :=
  match I.map id, I.map contact with
  | some idM, some cM => db.removeContact I idM cM
  | _, _ => .error .notMapped

/-- `contactBlock` (contact.go:317-329). -/
def contactBlock (I : Ids) (db : Db) (id contact : Bytes) : Except Err Db :=
  match I.map id, I.map contact with
  | some idM, some cM => add I db idM cM [] 2
  | _, _ => .error .notMapped

/-- `contactUnblock` (contact.go:331-358). -/
def contactUnblock (I : Ids) (db : Db) (id contact : Bytes) : Except Err Db :=
  match I.map id, I.map contact with
  | some idM, some cM =>
    match db.getContact I idM cM with
    | .error e => .error e
    | .ok (u, fullName, type) => if type ≠ 2 then .error .unknown else db.addContact I idM cM u fullName 0
  | _, _ => .error .notMapped

/-- `msgAdd` (msg.go:106-194); the text has been read. -/
def msgAdd (I : Ids) (db : Db) (frm to : Bytes) (now : Int) (msg : Bytes) (sign : Bool) (minDelay maxDelay : Int) : Except Err Db :=
  match I.map frm with
  | none => .error .notMapped
  | some fM =>
    match db.getNym I fM with
    | .error e => .error e
    | .ok (prev, _) =>
      if prev = [] then .error .unknown
      else match I.map to with
        | none => .error .notMapped
        | some tM =>
          match db.getContact I fM tM with
          | .error e => .error e
          | .ok (u, _, type) =>
            if u = [] ∨ type = 1 ∨ type = 2 then .error .unknown
            else db.addMessage I fM tM now true msg sign minDelay maxDelay

/-- What the user can look up about a contact: on which list it is and under which name. -/
structure Entry where
  unmapped : Bytes
  fullName : Bytes
  type : Int
  deriving DecidableEq, Repr

/-- A reachable database. -/
def Reached (I : Ids) (db : Db) : Prop := ∃ ops, db = Db.new.run I ops

theorem Reached.wf {db : Db} (h : Reached I db) : WF I db := by
  obtain ⟨ops, rfl⟩ := h
  exact wf_reach ops

theorem Reached.apply {db db' : Db} (h : Reached I db) (op : Op) (he : db.apply I op = .ok db') : Reached I db' := by
  obtain ⟨ops, rfl⟩ := h
  refine ⟨ops ++ [op], ?_⟩
  unfold Db.run
  rw [List.foldl_append]
  simp only [List.foldl_cons, List.foldl_nil]
  rw [show List.foldl (Db.step I) Db.new ops = Db.new.run I ops from rfl]
  unfold Db.step
  rw [he]

/-- Identities that are mapped once stay as they are. -/
def Idempotent (I : Ids) : Prop := ∀ u m, I.map u = some m → I.map m = some m

/-- The contact that `getContact` reports is unchanged for everybody else. -/
def OthersSame (I : Ids) (db db' : Db) (idM cM : Bytes) : Prop :=
  ∀ my c, (my, c) ≠ (idM, cM) → db'.getContact I my c = db.getContact I my c

theorem add_ok {db db' : Db} (h : Reached I db) {idM cM fullName : Bytes} {ty : Int} (hI : I.map cM = some cM) (ht : ty = 0 ∨ ty = 1 ∨ ty = 2)
    {u f : Bytes} {t : Int} (hg : db.getContact I idM cM = .ok (u, f, t)) (he : add I db idM cM fullName ty = .ok db') :
    db'.getContact I idM cM = .ok (cM, if u ≠ [] ∧ fullName = [] then f else fullName, ty) ∧ OthersSame I db db' idM cM := by
  unfold add at he
  rw [hI] at he
  simp only [hg] at he
  obtain ⟨ops, hops⟩ := h
  exact C51_add_contact ops hops _ _ _ _ _ ht he

/-- **C99** The name and the list given when adding a contact do not matter: the result is the same
for all of them, and a contact that was unknown ends on the white list without a name. -/
theorem C99_name_and_list_ignored (db : Db) (id contact f f' : Bytes) (t t' : Int) (fetched : Bool) :
    contactAdd I db id contact f t fetched = contactAdd I db id contact f' t' fetched := rfl

theorem C99_new_contact_nameless {db db' : Db} (hI : Idempotent I) (h : Reached I db) (id contact f : Bytes) (t : Int) (fetched : Bool) (idM cM : Bytes)
    (h1 : I.map id = some idM) (h2 : I.map contact = some cM) (hn : db.getContact I idM cM = .ok ([], [], 0))
    (he : contactAdd I db id contact f t fetched = .ok db') : db'.getContact I idM cM = .ok (cM, [], 0) := by
  simp only [contactAdd, h1, h2, contactAddMapped, hn, ne_eq, not_true_eq_false, if_false] at he
  cases fetched with
  | false => cases he
  | true =>
    have := (add_ok h (hI _ _ h2) (.inl rfl) hn he).1
    simpa using this

/-- **C99** The full statement fails: adding an unknown contact with a name and for the gray list
succeeds, and afterwards the contact is on the white list and has no name. -/
theorem C99_name_and_list_kept_violated : ∃ db db' : Db, Reached plainI db ∧ db.getContact plainI [1, 64, 2] [3, 64, 2] = .ok ([], [], 0) ∧
    contactAdd plainI db [1, 64, 2] [3, 64, 2] [77] 1 true = .ok db' ∧ db'.getContact plainI [1, 64, 2] [3, 64, 2] = .ok ([3, 64, 2], [], 0) :=
  ⟨Db.new.run plainI [.addNym [1, 64, 2] [1, 64, 2] []], _, ⟨_, rfl⟩, rfl, rfl, rfl⟩

/-- **C99** A contact that is known already is put on the white list; its name stays, and nothing
changes for other contacts and other nyms. -/
theorem C99_known_contact_partial {db db' : Db} (h : Reached I db) (id contact f : Bytes) (t : Int) (fetched : Bool) (idM cM : Bytes)
    (h1 : I.map id = some idM) (h2 : I.map contact = some cM) {u g : Bytes} {ty : Int} (hg : db.getContact I idM cM = .ok (u, g, ty)) (hu : u ≠ [])
    (he : contactAdd I db id contact f t fetched = .ok db') : db'.getContact I idM cM = .ok (u, g, 0) ∧ OthersSame I db db' idM cM := by
  simp only [contactAdd, h1, h2, contactAddMapped, hg, ne_eq, hu, not_false_eq_true, if_true] at he
  split at he
  · obtain ⟨ops, hops⟩ := h
    exact C51_add_contact ops hops _ _ _ _ _ (.inl rfl) he
  · rename_i hty
    injection he with he; subst he
    have : ty = 0 := Classical.not_not.mp hty
    subst this
    exact ⟨hg, fun _ _ _ => rfl⟩

theorem getContact_type {db : Db} {my c u f : Bytes} {t : Int} (h : db.getContact I my c = .ok (u, f, t)) : t = 0 ∨ t = 1 ∨ t = 2 := by
  unfold Db.getContact at h
  repeat' split at h
  all_goals first
    | cases h; done
    | (simp only [Except.ok.injEq, Prod.mk.injEq] at h; obtain ⟨_, _, rfl⟩ := h; first | exact .inl rfl | assumption)

/-- **C100** Blocking puts a contact on the black list and keeps its name; unblocking puts it back on
the white list with the same name. Nothing changes for other contacts and other nyms. -/
theorem C100_block {db db' : Db} (hI : Idempotent I) (h : Reached I db) (id contact idM cM : Bytes) (h1 : I.map id = some idM) (h2 : I.map contact = some cM)
    {u f : Bytes} {ty : Int} (hg : db.getContact I idM cM = .ok (u, f, ty)) (he : contactBlock I db id contact = .ok db') :
    db'.getContact I idM cM = .ok (cM, if u = [] then [] else f, 2) ∧ OthersSame I db db' idM cM := by
  simp only [contactBlock, h1, h2] at he
  have := add_ok h (hI _ _ h2) (.inr (.inr rfl)) hg he
  refine ⟨?_, this.2⟩
  rw [this.1]
  by_cases hu : u = []
  · simp [hu]
  · simp [hu]

theorem C100_unblock {db db' : Db} (h : Reached I db) (id contact idM cM : Bytes) (h1 : I.map id = some idM) (h2 : I.map contact = some cM)
    {u f : Bytes} {ty : Int} (hg : db.getContact I idM cM = .ok (u, f, ty)) (he : contactUnblock I db id contact = .ok db') :
    ty = 2 ∧ db'.getContact I idM cM = .ok (u, f, 0) ∧ OthersSame I db db' idM cM := by
  simp only [contactUnblock, h1, h2, hg] at he
  split at he
  · cases he
  rename_i ht
  obtain ⟨ops, hops⟩ := h
  exact ⟨Classical.not_not.mp ht, C51_add_contact ops hops _ _ _ _ _ (.inl rfl) he⟩

/-- **C100** A contact that is not blocked cannot be unblocked. -/
theorem C100_unblock_only_blocked (db : Db) (id contact idM cM : Bytes) (h1 : I.map id = some idM) (h2 : I.map contact = some cM)
    {u f : Bytes} {ty : Int} (hg : db.getContact I idM cM = .ok (u, f, ty)) (ht : ty ≠ 2) : ∃ e, contactUnblock I db id contact = .error e := by
  simp only [contactUnblock, h1, h2, hg, if_pos ht]
  exact ⟨_, rfl⟩

theorem addContact_ok {db : Db} {my c u f : Bytes} {t : Int} {r : Bytes × Bytes × Int} (hg : db.getContact I my c = .ok r) (hu : u ≠ []) (hm : I.map u = some c) :
    ∃ db', db.addContact I my c u f t = .ok db' := by
  unfold Db.getContact at hg
  split at hg
  · cases hg
  rename_i h1
  split at hg
  · cases hg
  rename_i h2
  split at hg
  · cases hg
  rename_i n hn
  unfold Db.addContact
  rw [if_neg h1, if_neg h2, if_neg hu, if_neg (by simp [hm]), hn]
  simp only
  split
  · exact ⟨_, rfl⟩
  · exact ⟨_, rfl⟩

/-- **C100** Blocking a known contact and unblocking it again succeed and lead back to a white-listed
contact with the same name. -/
theorem C100_block_unblock {db : Db} (hI : Idempotent I) (h : Reached I db) (id contact idM cM : Bytes) (h1 : I.map id = some idM) (h2 : I.map contact = some cM)
    (hne : cM ≠ []) {u f : Bytes} {ty : Int} (hg : db.getContact I idM cM = .ok (u, f, ty)) (hu : u ≠ []) :
    ∃ db1 db2, contactBlock I db id contact = .ok db1 ∧ contactUnblock I db1 id contact = .ok db2 ∧
      db1.getContact I idM cM = .ok (cM, f, 2) ∧ db2.getContact I idM cM = .ok (cM, f, 0) := by
  have hc := hI _ _ h2
  obtain ⟨db1, e1⟩ := addContact_ok (f := f) (t := 2) hg hne hc
  have hb : contactBlock I db id contact = .ok db1 := by
    simp only [contactBlock, h1, h2, add, hc, hg]
    rw [if_pos ⟨hu, trivial⟩]
    exact e1
  have g1 := (C100_block hI h id contact idM cM h1 h2 hg hb).1
  rw [if_neg hu] at g1
  obtain ⟨db2, e2⟩ := addContact_ok (f := f) (t := 0) g1 hne hc
  have hub : contactUnblock I db1 id contact = .ok db2 := by
    simp only [contactUnblock, h1, h2, g1]
    exact e2
  have hr : Reached I db1 := h.apply (.addContact idM cM cM f 2) e1
  exact ⟨db1, db2, hb, hub, g1, (C100_unblock hr id contact idM cM h1 h2 g1 hub).2.1⟩

/-- **C100** Changing the name of a contact keeps it on its list and changes nothing else. -/
theorem C100_edit {db db' : Db} (h : Reached I db) (id contact fullName idM cM : Bytes) (h1 : I.map id = some idM) (h2 : I.map contact = some cM)
    {u f : Bytes} {ty : Int} (hg : db.getContact I idM cM = .ok (u, f, ty)) (he : contactEdit I db id contact fullName = .ok db') :
    u ≠ [] ∧ db'.getContact I idM cM = .ok (contact, fullName, ty) ∧ OthersSame I db db' idM cM := by
  simp only [contactEdit, h1, h2, hg] at he
  split at he
  · cases he
  rename_i hu
  obtain ⟨ops, hops⟩ := h
  exact ⟨hu, C51_add_contact ops hops _ _ _ _ _ (getContact_type hg) he⟩

/-- **C101** A message can be added only for an existing nym and a contact on its white list, and it
is then the last message of the nym, waiting to be sent to that contact. -/
theorem C101_only_white_listed {db db' : Db} (frm to : Bytes) (now : Int) (msg : Bytes) (sign : Bool) (mi ma : Int)
    (he : msgAdd I db frm to now msg sign mi ma = .ok db') :
    ∃ fM tM u f, I.map frm = some fM ∧ I.map to = some tM ∧ db.getContact I fM tM = .ok (u, f, 0) ∧ u ≠ [] ∧
      ∃ m, vals db'.messages = vals db.messages ++ [m] ∧ db'.outQueue = db.outQueue ∧ m.message = msg ∧ m.from_ = fM ∧ m.to = tM ∧ m.outgoing = true ∧
        m.toSend = true ∧ m.sent = false ∧ m.date = now := by
  unfold msgAdd at he
  split at he
  · cases he
  rename_i fM h1
  split at he
  · cases he
  split at he
  · cases he
  split at he
  · cases he
  rename_i tM h2
  split at he
  · cases he
  rename_i u f ty hg
  split at he
  · cases he
  rename_i hc
  simp only [not_or] at hc
  have ht : ty = 0 := by
    rcases getContact_type hg with a | a | a
    · exact a
    · exact absurd a hc.2.1
    · exact absurd a hc.2.2
  subst ht
  refine ⟨fM, tM, u, f, h1, h2, hg, hc.1, ?_⟩
  unfold Db.addMessage at he
  repeat' split at he
  all_goals first
    | cases he; done
    | contradiction
    | skip
  injection he with he; subst he
  exact ⟨_, vals_insert _ _, rfl, rfl, rfl, rfl, rfl, rfl, rfl, rfl⟩

/-- **C101** Nothing can be sent to a contact that is unknown, removed or blocked. -/
theorem C101_refused (db : Db) (frm to fM tM : Bytes) (now : Int) (msg : Bytes) (sign : Bool) (mi ma : Int) (h1 : I.map frm = some fM) (h2 : I.map to = some tM)
    {u f : Bytes} {ty : Int} (hg : db.getContact I fM tM = .ok (u, f, ty)) (hn : u = [] ∨ ty ≠ 0) : ∃ e, msgAdd I db frm to now msg sign mi ma = .error e := by
  cases he : msgAdd I db frm to now msg sign mi ma with
  | error e => exact ⟨e, rfl⟩
  | ok db' =>
    obtain ⟨fM', tM', u', f', a, b, c, d, _⟩ := C101_only_white_listed frm to now msg sign mi ma he
    rw [h1] at a; injection a with a; subst a
    rw [h2] at b; injection b with b; subst b
    rw [hg] at c
    simp only [Except.ok.injEq, Prod.mk.injEq] at c
    obtain ⟨rfl, rfl, rfl⟩ := c
    rcases hn with e | e
    · exact absurd e d
    · exact absurd rfl e

/-! ### examples -/

theorem plainI_idempotent : Idempotent plainI := by
  intro u m h
  simp only [plainI] at h ⊢
  split at h
  · rename_i hu
    injection h with h; subst h
    exact if_pos hu
  · cases h

def contactDb : Db := Db.new.run plainI [.addNym [1, 64, 2] [1, 64, 2] [], .addContact [1, 64, 2] [3, 64, 2] [3, 64, 2] [77] 0]

example : Reached plainI contactDb ∧ contactDb.getContact plainI [1, 64, 2] [3, 64, 2] = .ok ([3, 64, 2], [77], 0) := ⟨⟨_, rfl⟩, rfl⟩

example : ∃ db1 db2 db3 db4, contactBlock plainI contactDb [1, 64, 2] [3, 64, 2] = .ok db1 ∧ contactUnblock plainI db1 [1, 64, 2] [3, 64, 2] = .ok db2 ∧
    contactEdit plainI db1 [1, 64, 2] [3, 64, 2] [78, 79] = .ok db3 ∧ contactAdd plainI db3 [1, 64, 2] [3, 64, 2] [] 0 true = .ok db4 ∧
    db3.getContact plainI [1, 64, 2] [3, 64, 2] = .ok ([3, 64, 2], [78, 79], 2) ∧ db4.getContact plainI [1, 64, 2] [3, 64, 2] = .ok ([3, 64, 2], [78, 79], 0) ∧
    db2.getContact plainI [1, 64, 2] [3, 64, 2] = .ok ([3, 64, 2], [77], 0) :=
  ⟨_, _, _, _, rfl, rfl, rfl, rfl, rfl, rfl, rfl⟩

example : ∃ db', msgAdd plainI contactDb [1, 64, 2] [3, 64, 2] 5 [72, 105] false 0 0 = .ok db' := ⟨_, rfl⟩

end Verif.Ctrl

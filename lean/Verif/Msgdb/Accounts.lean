/-
The accounts of the nyms: what was stored for one is what is read for it.
-/
import Verif.Msgdb.Nyms

set_option autoImplicit false

namespace Verif.Msgdb
open Verif.Sql

variable {I : Ids} {db db' : Db}

/-! ## C132: accounts -/

/-! ### the specification -/

/-- What a caller stores for an account, and the two times it sets later. -/
structure Entry where
  privkey : Bytes
  server : Bytes
  secret : Bytes
  minDelay : Int
  maxDelay : Int
  loadTime : Int
  lastMsgTime : Int
  deriving DecidableEq, Repr

/-- A book of accounts, one page per nym and contact; the page of the empty contact is the nym's
account for new contacts. -/
abbrev Book := Bytes → Bytes → Option Entry

/-- The book after a change of one page. -/
def Book.set (b : Book) (my c : Bytes) (e : Option Entry) : Book := fun x y => if x = my ∧ y = c then e else b x y

/-- The book after an operation that succeeded. -/
def Book.after (b : Book) : Op → Book
  | .addAccount my c k sv se mi ma => b.set my c (some ⟨k, sv, se, mi, ma, 0, 0⟩)
  | .setAccountTime my c t => b.set my c ((b my c).map fun e => { e with loadTime := t })
  | .setAccountLastMsg my c t => b.set my c ((b my c).map fun e => { e with lastMsgTime := t })
  | .delNym m => fun x y => if x = m then none else b x y
  | _ => b

def Account.entry (a : Account) : Entry := ⟨a.privkey, a.server, a.secret, a.minDelay, a.maxDelay, a.loadTime, a.lastMsgTime⟩

/-- The book a caller sees by asking for accounts. -/
def book (I : Ids) (db : Db) : Book := fun my c => ((db.getAccount I my c).toOption).map Account.entry

/-! ### what a look-up finds -/

/-- The account `a` is the one of nym `my` for contact `c`. -/
def At (db : Db) (my c : Bytes) (a : Account) : Prop :=
  (∃ i, (i, a) ∈ db.accounts) ∧ (∃ n, (a.myID, n) ∈ db.nyms ∧ n.mapped = my) ∧
  ((a.contactID = 0 ∧ c = []) ∨ (c ≠ [] ∧ ∃ k, (a.contactID, k) ∈ db.contacts ∧ k.myID = a.myID ∧ k.mapped = c))

theorem contactUID_mem (hw : WF I db) {c : Nat} {k : Contact} (h : (c, k) ∈ db.contacts) : db.contactUID k.myID k.mapped = some c := by
  unfold Db.contactUID
  cases hf : first (isContact k.myID k.mapped) db.contacts with
  | none =>
    have := List.find?_eq_none.mp hf (c, k) h
    simp [isContact] at this
  | some r =>
    have h1 := first_mem hf
    have h2 := h1.2
    simp only [isContact, Bool.and_eq_true, beq_iff_eq] at h2
    rw [hw.contactUnique r h1.1 (c, k) h h2.1 h2.2]
    rfl

theorem pair_of (hw : WF I db) {my c : Bytes} {u x : Nat} {n : Nym} (hn : (u, n) ∈ db.nyms) (en : n.mapped = my)
    (hc : (x = 0 ∧ c = []) ∨ (c ≠ [] ∧ ∃ k, (x, k) ∈ db.contacts ∧ k.myID = u ∧ k.mapped = c)) : db.pair I my c = .ok (u, x) := by
  subst en
  have h1 := nymUID_mem hw hn
  have h2 : ¬ I.isMapped n.mapped = false := by simp [(hw.nymFits _ hn).1]
  unfold Db.pair
  rw [if_neg h2, h1]
  rcases hc with ⟨rfl, rfl⟩ | ⟨hc, k, hk, ek, em⟩
  · rw [if_neg (by simp)]
    simp only [if_true]
  · have h3 : ¬ (c ≠ [] ∧ I.isMapped c = false) := by
      rintro ⟨_, h⟩
      have := (hw.contactFits _ hk).1
      simp only [em, h] at this
      cases this
    have h4 := contactUID_mem hw hk
    rw [ek, em] at h4
    rw [if_neg h3]
    simp only [if_neg hc, h4]

theorem getAccount_at (hw : WF I db) {my c : Bytes} {a : Account} : db.getAccount I my c = .ok a ↔ At db my c a := by
  constructor
  · intro h
    unfold Db.getAccount at h
    split at h
    · cases h
    · rename_i u x hp
      split at h
      · cases h
      · rename_i r hf
        injection h with h
        subst h
        obtain ⟨h1, h2⟩ := first_mem hf
        simp only [isAccount, Bool.and_eq_true, beq_iff_eq] at h2
        obtain ⟨p1, p2⟩ := pair_ok hp
        obtain ⟨n, hn, en⟩ := nymUID_some p1
        refine ⟨⟨r.1, h1⟩, ⟨n, by rw [h2.1]; exact hn, en⟩, ?_⟩
        split at p2
        · rename_i hc
          exact .inl ⟨h2.2.trans p2, hc⟩
        · rename_i hc
          obtain ⟨k, hk, e1, e2⟩ := contactUID_some p2
          exact .inr ⟨hc, k, by rw [h2.2]; exact hk, e1.trans h2.1.symm, e2⟩
  · rintro ⟨⟨i, hi⟩, ⟨n, hn, en⟩, hc⟩
    unfold Db.getAccount
    rw [pair_of hw hn en hc]
    simp only
    cases hf : first (isAccount a.myID a.contactID) db.accounts with
    | none =>
      have := List.find?_eq_none.mp hf (i, a) hi
      simp [isAccount] at this
    | some r =>
      obtain ⟨h1, h2⟩ := first_mem hf
      simp only [isAccount, Bool.and_eq_true, beq_iff_eq] at h2
      rw [hw.accountUnique r h1 (i, a) hi h2.1 h2.2]

theorem book_some (hw : WF I db) {my c : Bytes} {e : Entry} : book I db my c = some e ↔ ∃ a, At db my c a ∧ a.entry = e := by
  unfold book
  constructor
  · intro h
    obtain ⟨a, ha, rfl⟩ := Option.map_eq_some_iff.mp h
    refine ⟨a, ?_, rfl⟩
    cases hg : db.getAccount I my c with
    | error x => rw [hg] at ha; cases ha
    | ok b => rw [hg] at ha; cases ha; exact (getAccount_at hw).mp hg
  · rintro ⟨a, ha, rfl⟩
    rw [(getAccount_at hw).mpr ha]
    rfl

theorem book_congr (hw : WF I db) (hw' : WF I db') {my c : Bytes} (h : ∀ a, At db' my c a ↔ At db my c a) : book I db' my c = book I db my c := by
  apply Option.ext
  intro e
  rw [book_some hw, book_some hw']
  simp only [h]

/-- The nyms and contacts an account refers to keep their names. -/
theorem at_congr (hw : WF I db) (hw' : WF I db') {my c : Bytes} (ha : db'.accounts = db.accounts)
    (hn : ∀ u, HasNym db u → ∀ m, (∃ n, (u, n) ∈ db'.nyms ∧ n.mapped = m) ↔ ∃ n, (u, n) ∈ db.nyms ∧ n.mapped = m)
    (hc : ∀ u x, HasContact db u x → ∀ m, (∃ k, (x, k) ∈ db'.contacts ∧ k.myID = u ∧ k.mapped = m) ↔ ∃ k, (x, k) ∈ db.contacts ∧ k.myID = u ∧ k.mapped = m) (a : Account) :
    At db' my c a ↔ At db my c a := by
  unfold At
  rw [ha]
  refine and_congr_right fun ⟨i, hi⟩ => ?_
  refine and_congr (hn _ (hw.accountNym _ hi) _) (or_congr_right (and_congr_right fun _ => ?_))
  rcases hw.accountContact _ hi with h0 | hk
  · constructor
    · rintro ⟨k, hk, _⟩
      have := hw'.contacts.2 _ hk
      simp only at this h0; omega
    · rintro ⟨k, hk, _⟩
      have := hw.contacts.2 _ hk
      simp only at this h0; omega
  · exact hc _ _ hk _

theorem pair_accounts (t : Table Account) (my c : Bytes) : ({ db with accounts := t } : Db).pair I my c = db.pair I my c := rfl

/-- The look-up in a table of accounts. -/
theorem book_pair (my c : Bytes) : book I db my c = match db.pair I my c with
    | .error _ => none
    | .ok r => (first (isAccount r.1 r.2) db.accounts).map fun x => x.2.entry := by
  unfold book Db.getAccount
  cases db.pair I my c with
  | error e => rfl
  | ok r =>
    obtain ⟨u, x⟩ := r
    simp only
    cases first (isAccount u x) db.accounts <;> rfl

/-- A change of the rows of one account. -/
theorem book_update (hw : WF I db) {my c : Bytes} {r : Nat × Nat} (hp : db.pair I my c = .ok r) (f : Account → Account) (g : Entry → Entry)
    (hf : ∀ a, (f a).myID = a.myID ∧ (f a).contactID = a.contactID ∧ (f a).entry = g a.entry) :
    book I { db with accounts := update (isAccount r.1 r.2) f db.accounts } = (book I db).set my c ((book I db my c).map g) := by
  funext x y
  unfold Book.set
  have hk : ∀ (u v : Nat) (a : Account), isAccount r.1 r.2 a = true → isAccount u v (f a) = isAccount u v a := fun u v a _ => by
    simp only [isAccount, (hf a).1, (hf a).2.1]
  split
  · rename_i h
    obtain ⟨rfl, rfl⟩ := h
    rw [book_pair, pair_accounts, book_pair, hp]
    simp only
    rw [first_update _ _ _ _ (hk _ _)]
    cases hh : first (isAccount r.1 r.2) db.accounts with
    | none => rfl
    | some z =>
      have := (first_mem hh).2
      simp only [Option.map_some, this, if_true, (hf z.2).2.2]
  · rename_i h
    rw [book_pair, pair_accounts, book_pair]
    cases hq : db.pair I x y with
    | error e => rfl
    | ok q =>
      simp only
      rw [first_update _ _ _ _ (hk _ _)]
      cases hh : first (isAccount q.1 q.2) db.accounts with
      | none => rfl
      | some z =>
        have h1 := (first_mem hh).2
        have h2 : isAccount r.1 r.2 z.2 = false := by
          rw [Bool.eq_false_iff]
          intro h3
          simp only [isAccount, Bool.and_eq_true, beq_iff_eq] at h1 h3
          have e : q = r := Prod.ext (h1.1.symm.trans h3.1) (h1.2.symm.trans h3.2)
          rw [e] at hq
          exact h (pair_cases hw hq hp)
        simp [h2]

theorem book_add (hw : WF I db) {my c k sv se : Bytes} {mi ma : Int} (he : db.addAccount I my c k sv se mi ma = .ok db') :
    book I db my c = none ∧ book I db' = (book I db).set my c (some ⟨k, sv, se, mi, ma, 0, 0⟩) := by
  unfold Db.addAccount at he
  split at he
  · cases he
  rename_i u x hp
  split at he
  · cases he
  rename_i hs
  injection he with he
  have hn : first (isAccount u x) db.accounts = none := first_none_iff.mpr (select_nil_iff.mp (Decidable.not_not.mp hs))
  refine ⟨by rw [book_pair, hp]; simp only [hn]; rfl, ?_⟩
  subst he
  funext y z
  unfold Book.set
  split
  · rename_i h
    obtain ⟨rfl, rfl⟩ := h
    rw [book_pair, pair_accounts, hp]
    simp only
    rw [first_insert, hn]
    simp [isAccount, Account.entry]
  · rename_i h
    rw [book_pair, pair_accounts, book_pair]
    cases hq : db.pair I y z with
    | error e => rfl
    | ok q =>
      simp only
      rw [first_insert]
      have : isAccount q.1 q.2 ⟨u, x, k, sv, se, mi, ma, 0, 0⟩ = false := by
        rw [Bool.eq_false_iff]
        intro h1
        simp only [isAccount, Bool.and_eq_true, beq_iff_eq] at h1
        have e : q = (u, x) := Prod.ext h1.1.symm h1.2.symm
        rw [e] at hq
        exact h (pair_cases hw hq hp)
      simp [this]

theorem nym_insert {t : Table Nym} {u : Nat} (n' : Nym) (h : ∃ n, (u, n) ∈ t) (m : Bytes) :
    (∃ n, (u, n) ∈ insert t n' ∧ n.mapped = m) ↔ ∃ n, (u, n) ∈ t ∧ n.mapped = m := by
  constructor
  · rintro ⟨n, hn, e⟩
    rcases mem_insert.mp hn with hn | hn
    · exact ⟨n, hn, e⟩
    · obtain ⟨n0, h0⟩ := h
      have := lt_nextId t h0
      have := congrArg Prod.fst hn
      simp only at *; omega
  · rintro ⟨n, hn, e⟩
    exact ⟨n, mem_insert.mpr (.inl hn), e⟩

theorem nym_update {t : Table Nym} {u : Nat} (p : Nym → Bool) (f : Nym → Nym) (hf : ∀ n, (f n).mapped = n.mapped) (m : Bytes) :
    (∃ n, (u, n) ∈ update p f t ∧ n.mapped = m) ↔ ∃ n, (u, n) ∈ t ∧ n.mapped = m := by
  constructor
  · rintro ⟨n, hn, e⟩
    obtain ⟨a, ha, e1 | ⟨_, e1⟩⟩ := of_update hn
    · exact ⟨a, ha, by simp only at e1; rw [← e1, e]⟩
    · exact ⟨a, ha, by simp only at e1; rw [← hf a, ← e1, e]⟩
  · rintro ⟨n, hn, e⟩
    obtain ⟨b, hb, e1 | e1⟩ := to_update p f hn
    · exact ⟨b, hb, by rw [e1, e]⟩
    · exact ⟨b, hb, by rw [e1, hf, e]⟩

theorem contact_insert {t : Table Contact} {u x : Nat} (k' : Contact) (h : ∃ k, (x, k) ∈ t ∧ k.myID = u) (m : Bytes) :
    (∃ k, (x, k) ∈ insert t k' ∧ k.myID = u ∧ k.mapped = m) ↔ ∃ k, (x, k) ∈ t ∧ k.myID = u ∧ k.mapped = m := by
  constructor
  · rintro ⟨n, hn, e⟩
    rcases mem_insert.mp hn with hn | hn
    · exact ⟨n, hn, e⟩
    · obtain ⟨n0, h0, _⟩ := h
      have := lt_nextId t h0
      have := congrArg Prod.fst hn
      simp only at *; omega
  · rintro ⟨n, hn, e⟩
    exact ⟨n, mem_insert.mpr (.inl hn), e⟩

theorem contact_update {t : Table Contact} {u x : Nat} (p : Contact → Bool) (f : Contact → Contact) (hf : ∀ n, (f n).myID = n.myID ∧ (f n).mapped = n.mapped) (m : Bytes) :
    (∃ k, (x, k) ∈ update p f t ∧ k.myID = u ∧ k.mapped = m) ↔ ∃ k, (x, k) ∈ t ∧ k.myID = u ∧ k.mapped = m := by
  constructor
  · rintro ⟨n, hn, e⟩
    obtain ⟨a, ha, e1 | ⟨_, e1⟩⟩ := of_update hn
    · exact ⟨a, ha, by simp only at e1; rw [← e1]; exact e⟩
    · exact ⟨a, ha, by simp only at e1; rw [← (hf a).1, ← (hf a).2, ← e1]; exact e⟩
  · rintro ⟨n, hn, e⟩
    obtain ⟨b, hb, e1 | e1⟩ := to_update p f hn
    · exact ⟨b, hb, by rw [e1]; exact e⟩
    · exact ⟨b, hb, by rw [e1, (hf n).1, (hf n).2]; exact e⟩

/-- The book does not depend on the other tables, nor on changes of nyms and contacts that keep
those that exist. -/
theorem book_keep (hw : WF I db) (hw' : WF I db') (ha : db'.accounts = db.accounts)
    (hn : ∀ u, HasNym db u → ∀ m, (∃ n, (u, n) ∈ db'.nyms ∧ n.mapped = m) ↔ ∃ n, (u, n) ∈ db.nyms ∧ n.mapped = m)
    (hc : ∀ u x, HasContact db u x → ∀ m, (∃ k, (x, k) ∈ db'.contacts ∧ k.myID = u ∧ k.mapped = m) ↔ ∃ k, (x, k) ∈ db.contacts ∧ k.myID = u ∧ k.mapped = m) :
    book I db' = book I db := by
  funext my c
  exact book_congr hw hw' (at_congr hw hw' ha hn hc)

theorem book_cascade (hw : WF I db) {u : Nat} {n : Nym} (hn : (u, n) ∈ db.nyms) (my c : Bytes) :
    book I (db.cascade u) my c = if my = n.mapped then none else book I db my c := by
  split
  · rename_i h
    subst h
    rw [book_pair]
    have : (db.cascade u).nymUID n.mapped = none := by
      cases hv : (db.cascade u).nymUID n.mapped with
      | none => rfl
      | some v =>
        obtain ⟨k, hk, e⟩ := nymUID_some hv
        simp only [Db.cascade] at hk
        obtain ⟨h1, h2⟩ := mem_deleteId.mp hk
        exact absurd (congrArg Prod.fst (hw.nymUnique _ h1 _ hn e)) h2
    have hp : ∃ e, (db.cascade u).pair I n.mapped c = .error e := by
      unfold Db.pair
      rw [this]
      split
      · exact ⟨_, rfl⟩
      · split
        · exact ⟨_, rfl⟩
        · exact ⟨_, rfl⟩
    obtain ⟨e, hp⟩ := hp
    rw [hp]
  · rename_i hne
    have h2 := cascade_nymUID hw hn hne
    have h3 := fun v => nymUID_ne hw hn hne (v := v)
    rw [book_pair, book_pair, cascade_pair h2 h3]
    cases hr : db.pair I my c with
    | error e => rfl
    | ok r =>
      have hv := h3 r.1 (pair_ok hr).1
      simp only
      have : first (isAccount r.1 r.2) (db.cascade u).accounts = first (isAccount r.1 r.2) db.accounts := by
        simp only [Db.cascade, delete]
        refine first_filter fun z _ hz => ?_
        simp only [isAccount, Bool.and_eq_true, beq_iff_eq] at hz
        simpa [hz.1] using hv
      rw [this]

/-- One operation. -/
theorem book_apply (hw : WF I db) (op : Op) (he : db.apply I op = .ok db') : book I db' = (book I db).after op := by
  have hw' := wf_apply hw op he
  cases op with
  | addAccount my c k sv se mi ma => exact (book_add hw he).2
  | setAccountTime my c t =>
    simp only [Db.apply, Db.setAccountTime] at he
    split at he
    · cases he
    rename_i u x hp
    injection he with he; subst he
    exact book_update hw hp (fun a => { a with loadTime := t }) (fun e => { e with loadTime := t }) fun a => ⟨rfl, rfl, rfl⟩
  | setAccountLastMsg my c t =>
    simp only [Db.apply, Db.setAccountLastMsg] at he
    split at he
    · cases he
    rename_i u x hp
    injection he with he; subst he
    exact book_update hw hp (fun a => { a with lastMsgTime := t }) (fun e => { e with lastMsgTime := t }) fun a => ⟨rfl, rfl, rfl⟩
  | delNym m =>
    obtain ⟨u, n, hn, rfl, rfl⟩ := delNym_ok he
    funext my c
    exact book_cascade hw hn my c
  | addNym m u f =>
    refine book_keep hw hw' ?_ ?_ ?_
    all_goals
      simp only [Db.apply, Db.addNym] at he
      repeat' split at he
    all_goals first
      | cases he; done
      | (injection he with he; subst he)
    any_goals rfl
    · exact fun u hu m => nym_insert _ hu m
    · exact fun u hu m => by dsimp only; refine nym_update _ _ ?_ m; intro n; rfl
    · exact fun _ _ _ _ => Iff.rfl
    · exact fun _ _ _ _ => Iff.rfl
  | setUpkeepAll m t =>
    refine book_keep hw hw' ?_ ?_ ?_
    all_goals
      simp only [Db.apply, Db.setUpkeepAll] at he
      repeat' split at he
    all_goals first
      | cases he; done
      | (injection he with he; subst he)
    any_goals rfl
    · exact fun u hu m => by dsimp only; refine nym_update _ _ ?_ m; intro n; rfl
    · exact fun _ _ _ _ => Iff.rfl
  | setUpkeepAccounts m t =>
    refine book_keep hw hw' ?_ ?_ ?_
    all_goals
      simp only [Db.apply, Db.setUpkeepAccounts] at he
      repeat' split at he
    all_goals first
      | cases he; done
      | (injection he with he; subst he)
    any_goals rfl
    · exact fun u hu m => by dsimp only; refine nym_update _ _ ?_ m; intro n; rfl
    · exact fun _ _ _ _ => Iff.rfl
  | addContact my m u f ty =>
    refine book_keep hw hw' ?_ ?_ ?_
    all_goals
      simp only [Db.apply, Db.addContact] at he
      repeat' split at he
    all_goals first
      | cases he; done
      | (injection he with he; subst he)
    any_goals rfl
    · exact fun _ _ _ => Iff.rfl
    · exact fun _ _ _ => Iff.rfl
    · exact fun u x hu m => contact_insert _ hu m
    · exact fun u x hu m => by dsimp only; refine contact_update _ _ ?_ m; intro n; exact ⟨rfl, rfl⟩
  | removeContact my m =>
    refine book_keep hw hw' ?_ ?_ ?_
    all_goals
      simp only [Db.apply, Db.removeContact] at he
      repeat' split at he
    all_goals first
      | cases he; done
      | (injection he with he; subst he)
    any_goals rfl
    · exact fun _ _ _ => Iff.rfl
    · exact fun u x hu m => by dsimp only; refine contact_update _ _ ?_ m; intro n; exact ⟨rfl, rfl⟩
  | _ =>
    simp only [Db.apply, Db.addValue, Db.addMessage, Db.readMessage, Db.delMessage, Db.addOutQueue,
      Db.setOutQueue, Db.removeOutQueue, Db.retractOutQueue, Db.setResend, Db.clearResend, Db.addInQueue, Db.setInQueue,
      Db.removeInQueue, Db.delInQueue, Db.addCache, Db.removeCache] at he
    repeat' split at he
    all_goals first
      | cases he; done
      | (injection he with he; subst he; rfl)

/-! ### the theorems -/

/-- The book written down along a history: only operations that succeed change it. -/
def ledger (I : Ids) : Db → Book → List Op → Book
  | _, b, [] => b
  | db, b, op :: ops =>
    match db.apply I op with
    | .ok db' => ledger I db' (b.after op) ops
    | .error _ => ledger I db b ops

/-- **C132** After every history, asking for the account of a nym and a contact gives exactly what
was last stored for that pair: private key, server, secret and delays as given when it was added, and the
two times as last set. Nothing but deleting the nym removes it, and no other operation changes it. -/
theorem C132_accounts (ops : List Op) (my c : Bytes) :
    book I (Db.new.run I ops) my c = ledger I Db.new (fun _ _ => none) ops my c := by
  suffices ∀ (db : Db), WF I db → book I (db.run I ops) = ledger I db (book I db) ops by
    have hb : book I Db.new = fun _ _ => none := by
      funext x y
      cases hg : book I Db.new x y with
      | none => rfl
      | some e =>
        obtain ⟨a, ⟨⟨i, hi⟩, _⟩, _⟩ := (book_some wf_new).mp hg
        cases hi
    rw [this Db.new wf_new, hb]
  induction ops with
  | nil => intro db _; rfl
  | cons op ops ih =>
    intro db hw
    have hstep : db.run I (op :: ops) = (db.step I op).run I ops := rfl
    rw [hstep, ih _ (wf_step hw op)]
    cases he : db.apply I op with
    | error e =>
      have h1 : db.step I op = db := by unfold Db.step; rw [he]
      rw [h1, ledger, he]
    | ok db' =>
      have h1 : db.step I op = db' := by unfold Db.step; rw [he]
      rw [h1, ledger, he, book_apply hw op he]

/-- The two nyms of the examples have accounts: the first one for new contacts and one for its
contact, the second one for new contacts. -/
def withAccounts : List Op :=
  twoNyms ++ [.addAccount [1] [] [11] [12] [13] 1 2, .addAccount [1] [2] [21] [22] [23] 3 4, .addAccount [2] [] [31] [32] [33] 5 6,
    .addAccount [1] [] [99] [99] [99] 9 9, .setAccountTime [1] [2] 70, .setAccountLastMsg [2] [] 80, .removeContact [1] [2]]

example : book idI (Db.new.run idI withAccounts) [1] [2] = some ⟨[21], [22], [23], 3, 4, 70, 0⟩ ∧
    book idI (Db.new.run idI withAccounts) [1] [] = some ⟨[11], [12], [13], 1, 2, 0, 0⟩ ∧
    book idI (Db.new.run idI withAccounts) [2] [] = some ⟨[31], [32], [33], 5, 6, 0, 80⟩ ∧
    book idI (Db.new.run idI (withAccounts ++ [.delNym [1]])) [1] [2] = none := ⟨rfl, rfl, rfl, rfl⟩

/-- **C132** An account is added exactly if the nym exists, the contact is empty or one of the nym's
contacts, and there is no account for the two yet. -/
theorem C132_add (ops : List Op) (hdb : db = Db.new.run I ops) (my c k sv se : Bytes) (mi ma : Int) :
    (∃ db', db.addAccount I my c k sv se mi ma = .ok db') ↔
      (∃ u f, db.getNym I my = .ok (u, f) ∧ u ≠ []) ∧ (c = [] ∨ ∃ n, (n ∈ db.contacts.map Prod.snd ∧ n.mapped = c) ∧ db.nymUID my = some n.myID) ∧
      book I db my c = none := by
  have hw : WF I db := by rw [hdb]; exact wf_reach ops
  constructor
  · rintro ⟨db', he⟩
    have hb := (book_add hw he).1
    unfold Db.addAccount at he
    split at he
    · cases he
    rename_i u x hp
    obtain ⟨p1, p2⟩ := pair_ok hp
    obtain ⟨n, hn, en⟩ := nymUID_some p1
    refine ⟨⟨n.unmapped, n.fullName, ?_, (hw.nymFits _ hn).2.2⟩, ?_, hb⟩
    · unfold Db.getNym
      rw [if_neg (by rw [← en]; simp [(hw.nymFits _ hn).1])]
      cases hf : first (fun k : Nym => k.mapped == my) db.nyms with
      | none =>
        have := List.find?_eq_none.mp hf (u, n) hn
        simp [en] at this
      | some r =>
        have h1 := first_mem hf
        rw [hw.nymUnique r h1.1 (u, n) hn (by rw [en]; simpa using h1.2)]
    · split at p2
      · rename_i hc
        exact .inl hc
      · obtain ⟨k, hk, e1, e2⟩ := contactUID_some p2
        exact .inr ⟨k, ⟨List.mem_map.mpr ⟨_, hk, rfl⟩, e2⟩, by rw [e1]; exact p1⟩
  · rintro ⟨⟨u, f, hg, hu⟩, hc, hb⟩
    have hp : ∃ r, db.pair I my c = .ok r := by
      have hn : ∃ v n, (v, n) ∈ db.nyms ∧ n.mapped = my := by
        unfold Db.getNym at hg
        split at hg
        · cases hg
        split at hg
        · injection hg with hg
          exact absurd (congrArg Prod.fst hg).symm hu
        · rename_i r hf
          have := first_mem hf
          exact ⟨r.1, r.2, this.1, by simpa using this.2⟩
      obtain ⟨v, n, hn, en⟩ := hn
      by_cases h0 : c = []
      · exact ⟨_, pair_of hw hn en (.inl ⟨rfl, h0⟩)⟩
      · rcases hc with hc | ⟨k, ⟨hk, ek⟩, e⟩
        · exact absurd hc h0
        · obtain ⟨r, hr, rfl⟩ := List.mem_map.mp hk
          have h1 := nymUID_mem hw hn
          rw [en, e] at h1
          exact ⟨_, pair_of hw hn en (.inr ⟨h0, r.2, hr, Option.some.inj h1, ek⟩)⟩
    obtain ⟨r, hr⟩ := hp
    rw [book_pair, hr] at hb
    unfold Db.addAccount
    rw [hr]
    simp only at hb ⊢
    rw [if_neg]
    · exact ⟨_, rfl⟩
    · rw [Decidable.not_not]
      exact select_nil_iff.mpr (first_none_iff.mp (by simpa using hb))

theorem contactNames_mem {u : Nat} {l : List Nat} {r : List Bytes} (h : db.contactNames u l = .ok r) (m : Bytes) :
    m ∈ r ↔ ∃ x ∈ l, db.contactMapped u x = some m := by
  induction l generalizing r with
  | nil => cases h; simp
  | cons x l ih =>
    unfold Db.contactNames at h
    split at h
    · cases h
    · rename_i m' hm
      split at h
      · cases h
      · rename_i t ht
        injection h with h
        subst h
        rw [List.mem_cons, ih ht]
        constructor
        · rintro (rfl | ⟨y, hy, e⟩)
          · exact ⟨x, .head _, hm⟩
          · exact ⟨y, .tail _ hy, e⟩
        · rintro ⟨y, hy, e⟩
          rcases List.mem_cons.mp hy with rfl | hy
          · rw [hm] at e; exact .inl (Option.some.inj e).symm
          · exact .inr ⟨y, hy, e⟩

theorem contactNames_ok {u : Nat} {l : List Nat} (h : ∀ x ∈ l, ∃ m, db.contactMapped u x = some m) : ∃ r, db.contactNames u l = .ok r := by
  induction l with
  | nil => exact ⟨_, rfl⟩
  | cons x l ih =>
    obtain ⟨m, hm⟩ := h x (.head _)
    obtain ⟨r, hr⟩ := ih fun y hy => h y (.tail _ hy)
    exact ⟨m :: r, by unfold Db.contactNames; rw [hm, hr]⟩

theorem contactMapped_some (_hw : WF I db) {u x : Nat} {m : Bytes} (h : db.contactMapped u x = some m) :
    ∃ k, (x, k) ∈ db.contacts ∧ k.myID = u ∧ k.mapped = m := by
  unfold Db.contactMapped at h
  obtain ⟨k, hk, e⟩ := Option.bind_eq_some_iff.mp h
  split at e
  · rename_i hu
    exact ⟨k, byId_some hk, eq_of_beq hu, Option.some.inj e⟩
  · cases e

theorem contactNames_nodup (hw : WF I db) {u : Nat} {l : List Nat} {r : List Bytes} (h : db.contactNames u l = .ok r) (hl : l.Nodup) : r.Nodup := by
  induction l generalizing r with
  | nil => cases h; exact List.nodup_nil
  | cons x l ih =>
    unfold Db.contactNames at h
    split at h
    · cases h
    · rename_i m' hm
      split at h
      · cases h
      · rename_i t ht
        injection h with h
        subst h
        obtain ⟨h1, h2⟩ := List.nodup_cons.mp hl
        refine List.nodup_cons.mpr ⟨fun hc => ?_, ih ht h2⟩
        obtain ⟨y, hy, e⟩ := (contactNames_mem ht m').mp hc
        obtain ⟨k1, hk1, u1, e1⟩ := contactMapped_some hw hm
        obtain ⟨k2, hk2, u2, e2⟩ := contactMapped_some hw e
        have := congrArg Prod.fst (hw.contactUnique _ hk1 _ hk2 (u1.trans u2.symm) (e1.trans e2.symm))
        simp only at this
        exact h1 (this ▸ hy)

/-- The identifiers of the contacts of the accounts of a nym are all different. -/
theorem account_ids (hw : WF I db) (u : Nat) : ((select (fun a : Account => a.myID == u) db.accounts).map fun r => r.2.contactID).Nodup := by
  have h := hw.accounts.1
  have hu := hw.accountUnique
  generalize db.accounts = t at h hu
  induction t with
  | nil => exact List.nodup_nil
  | cons r t ih =>
    obtain ⟨h1, h2⟩ := List.pairwise_cons.mp h
    have ih := ih h2 fun a ha b hb => hu a (.tail _ ha) b (.tail _ hb)
    unfold select at ih ⊢
    rw [List.filter_cons]
    split
    · rename_i hp
      refine List.nodup_cons.mpr ⟨fun hc => ?_, ih⟩
      obtain ⟨s, hs, e⟩ := List.mem_map.mp hc
      obtain ⟨hs1, hs2⟩ := List.mem_filter.mp hs
      have := h1 s hs1
      rw [hu r (.head _) s (.tail _ hs1) ((eq_of_beq hp).trans (eq_of_beq hs2).symm) e.symm] at this
      omega
    · exact ih

/-- **C132** The list of a nym's accounts can be read whenever the nym exists. It names every contact
there is an account for exactly once, and no other; the empty name stands for the account for new
contacts. -/
theorem C132_list (ops : List Op) (hdb : db = Db.new.run I ops) (hI : I.isMapped [] = false) (my : Bytes) :
    ((∃ l, db.getAccounts I my = .ok l) ↔ ∃ u f, db.getNym I my = .ok (u, f) ∧ u ≠ []) ∧
    ∀ l, db.getAccounts I my = .ok l → l.Nodup ∧ ∀ c, c ∈ l ↔ ∃ e, book I db my c = some e := by
  have hw : WF I db := by rw [hdb]; exact wf_reach ops
  have hne : ∀ r ∈ db.contacts, r.2.mapped ≠ [] := fun r hr h => by
    have := (hw.contactFits r hr).1
    rw [h, hI] at this
    cases this
  have hnym : ∀ u, db.nymUID my = some u → I.isMapped my = true ∧ ∃ n, (u, n) ∈ db.nyms ∧ n.mapped = my := fun u hu => by
    obtain ⟨n, hn, en⟩ := nymUID_some hu
    exact ⟨by rw [← en]; exact (hw.nymFits _ hn).1, n, hn, en⟩
  have hids : ∀ u, ∀ x ∈ ((select (fun a : Account => a.myID == u) db.accounts).map fun r => r.2.contactID).filter (· != 0), ∃ m, db.contactMapped u x = some m := by
    intro u x hx
    obtain ⟨hx, h0⟩ := List.mem_filter.mp hx
    obtain ⟨r, hr, rfl⟩ := List.mem_map.mp hx
    obtain ⟨hr, hu⟩ := List.mem_filter.mp hr
    have hu : r.2.myID = u := eq_of_beq hu
    rcases hw.accountContact r hr with h | ⟨k, hk, e⟩
    · rw [h] at h0; cases h0
    · have := contactMapped_mem hw hk
      rw [e, hu] at this
      exact ⟨_, this⟩
  constructor
  · constructor
    · rintro ⟨l, h⟩
      unfold Db.getAccounts at h
      split at h
      · cases h
      split at h
      · cases h
      · rename_i hm _ u hu
        obtain ⟨_, n, hn, en⟩ := hnym u hu
        refine ⟨n.unmapped, n.fullName, ?_, (hw.nymFits _ hn).2.2⟩
        unfold Db.getNym
        rw [if_neg hm]
        cases hf : first (fun k : Nym => k.mapped == my) db.nyms with
        | none =>
          have := List.find?_eq_none.mp hf (u, n) hn
          simp [en] at this
        | some r =>
          have h1 := first_mem hf
          rw [hw.nymUnique r h1.1 (u, n) hn (by rw [en]; simpa using h1.2)]
    · rintro ⟨u, f, hg, hu⟩
      unfold Db.getNym at hg
      split at hg
      · cases hg
      rename_i hm
      split at hg
      · injection hg with hg
        exact absurd (congrArg Prod.fst hg).symm hu
      · rename_i r hf
        have hv : db.nymUID my = some r.1 := by unfold Db.nymUID; rw [hf]; rfl
        unfold Db.getAccounts
        rw [if_neg hm, hv]
        obtain ⟨t, ht⟩ := contactNames_ok (hids r.1)
        simp only [ht]
        exact ⟨_, rfl⟩
  · intro l h
    unfold Db.getAccounts at h
    split at h
    · cases h
    split at h
    · cases h
    rename_i hm _ u hu
    obtain ⟨_, n, hn, en⟩ := hnym u hu
    simp only at h
    split at h
    · cases h
    rename_i t ht
    injection h with h
    subst h
    have hnd := account_ids hw u
    constructor
    · rw [List.nodup_append]
      refine ⟨?_, contactNames_nodup hw ht (hnd.filter _), ?_⟩
      · have h1 : ∀ l : List Nat, l.Nodup → ((l.filter (· == 0)).map fun _ => ([] : Bytes)).Nodup := by
          intro l hl
          induction l with
          | nil => exact List.nodup_nil
          | cons x l ih =>
            obtain ⟨h1, h2⟩ := List.nodup_cons.mp hl
            rw [List.filter_cons]
            split
            · rename_i h0
              have h0 : x = 0 := eq_of_beq h0
              have : l.filter (· == 0) = [] := List.filter_eq_nil_iff.mpr fun y hy hc => h1 (by rw [h0, ← eq_of_beq hc]; exact hy)
              rw [this]
              exact List.nodup_cons.mpr ⟨List.not_mem_nil, List.nodup_nil⟩
            · exact ih h2
        exact h1 _ hnd
      · intro a ha b hb
        obtain ⟨_, _, rfl⟩ := List.mem_map.mp ha
        obtain ⟨x, _, e⟩ := (contactNames_mem ht b).mp hb
        obtain ⟨k, hk, _, e2⟩ := contactMapped_some hw e
        rw [← e2]
        exact (hne _ hk).symm
    · intro c
      rw [List.mem_append, contactNames_mem ht]
      constructor
      · rintro (h | ⟨x, hx, e⟩)
        · obtain ⟨x, hx, rfl⟩ := List.mem_map.mp h
          obtain ⟨hx, h0⟩ := List.mem_filter.mp hx
          obtain ⟨r, hr, rfl⟩ := List.mem_map.mp hx
          obtain ⟨hr, hv⟩ := List.mem_filter.mp hr
          have hv : r.2.myID = u := eq_of_beq hv
          exact ⟨_, (book_some hw).mpr ⟨r.2, ⟨⟨r.1, hr⟩, ⟨n, by rw [hv]; exact hn, en⟩, .inl ⟨eq_of_beq h0, rfl⟩⟩, rfl⟩⟩
        · obtain ⟨hx, h0⟩ := List.mem_filter.mp hx
          obtain ⟨r, hr, rfl⟩ := List.mem_map.mp hx
          obtain ⟨hr, hv⟩ := List.mem_filter.mp hr
          have hv : r.2.myID = u := eq_of_beq hv
          obtain ⟨k, hk, e1, e2⟩ := contactMapped_some hw e
          exact ⟨_, (book_some hw).mpr ⟨r.2, ⟨⟨r.1, hr⟩, ⟨n, by rw [hv]; exact hn, en⟩,
            .inr ⟨by rw [← e2]; exact hne _ hk, k, hk, e1.trans hv.symm, e2⟩⟩, rfl⟩⟩
      · rintro ⟨e, he⟩
        obtain ⟨a, ⟨⟨i, hi⟩, ⟨n', hn', en'⟩, hc⟩, _⟩ := (book_some hw).mp he
        have hv : a.myID = u := by
          have := nymUID_mem hw hn'
          rw [en', hu] at this
          exact (Option.some.inj this).symm
        have hsel : a.contactID ∈ (select (fun a : Account => a.myID == u) db.accounts).map fun r => r.2.contactID :=
          List.mem_map.mpr ⟨(i, a), List.mem_filter.mpr ⟨hi, by simpa using hv⟩, rfl⟩
        rcases hc with ⟨h0, rfl⟩ | ⟨_, k, hk, e1, e2⟩
        · exact .inl (List.mem_map.mpr ⟨a.contactID, List.mem_filter.mpr ⟨hsel, by simpa using h0⟩, rfl⟩)
        · refine .inr ⟨a.contactID, List.mem_filter.mpr ⟨hsel, ?_⟩, ?_⟩
          · have := hw.contacts.2 _ hk
            simp only at this
            simp only [bne_iff_ne]; omega
          · have := contactMapped_mem hw hk
            rw [e1, hv, e2] at this
            exact this

/-- Identities that are not empty. -/
def nonEmpty : Ids := ⟨fun b => if b = [] then none else some b⟩

example : nonEmpty.isMapped [] = false ∧ (Db.new.run nonEmpty withAccounts).getAccounts nonEmpty [1] = .ok [[], [2]] ∧
    (Db.new.run nonEmpty withAccounts).getAccounts nonEmpty [2] = .ok [[]] := ⟨rfl, rfl, rfl⟩

end Verif.Msgdb

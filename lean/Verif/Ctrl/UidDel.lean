/-
C110: deleting a user ID. C111: the active user ID.
-/
import Verif.Ctrl.UidToy
import Verif.Ctrl.UpkeepProps

namespace Verif.Ctrl.Uid
open Verif.Sql Verif.Msgdb Verif.Ctrl.Upkeep

variable {σ α β : Type} {I : Ids}

/-! ### C110: deleting a user ID -/

theorem closeAll_ok (E : Env σ) : ∀ (l : List (Bytes × Bytes)) (s s' : St σ), closeAll E l s = (s', .ok ()) →
    s'.db = s.db ∧ s'.log = s.log ++ l.map (fun x => .closed x.1 x.2 true)
  | [], s, s', h => by
    injection h with h _
    subst h
    exact ⟨rfl, by simp⟩
  | (k, v) :: l, s, s', h => by
    change andThen (ask fun w => E.deleteAccount w k v) (fun ok => andThen (note (.closed k v ok)) fun _ => if ok then closeAll E l else throw .deleteAccount) s = _ at h
    simp only [andThen, ask, note] at h
    cases hd : (E.deleteAccount s.w k v).2 with
    | false => rw [hd] at h; simp only [Bool.false_eq_true, if_false, throw] at h; injection h with _ h; cases h
    | true =>
      rw [hd] at h
      obtain ⟨h1, h2⟩ := closeAll_ok E l _ s' h
      exact ⟨h1, by rw [h2]; simp⟩

theorem closeAll_db (E : Env σ) : ∀ (l : List (Bytes × Bytes)), Keeps (closeAll E l)
  | [] => keeps_ret _
  | (k, v) :: l => (keeps_ask _).bind fun ok => (keeps_note _).bind fun _ => by
    cases ok with
    | true => exact closeAll_db E l
    | false => exact keeps_throw _

theorem closeAll_err (E : Env σ) : ∀ (l : List (Bytes × Bytes)) (s s' : St σ) (e : UErr), closeAll E l s = (s', .err e) → e = .deleteAccount
  | [], s, s', e, h => by injection h with _ h; cases h
  | (k, v) :: l, s, s', e, h => by
    change andThen (ask fun w => E.deleteAccount w k v) (fun ok => andThen (note (.closed k v ok)) fun _ => if ok then closeAll E l else throw .deleteAccount) s = _ at h
    simp only [andThen, ask, note] at h
    cases hd : (E.deleteAccount s.w k v).2 with
    | false => rw [hd] at h; simp only [Bool.false_eq_true, if_false, throw] at h; injection h with _ h; injection h with h; exact h.symm
    | true => rw [hd] at h; exact closeAll_err E l _ s' e h

theorem keysOf_mem {my : Bytes} {db : Db} : ∀ (l : List Bytes) (r : List (Bytes × Bytes)), keysOf I my db l = .ok r →
    (∀ c ∈ l, ∃ a, db.getAccount I my c = .ok a ∧ (a.privkey, a.server) ∈ r) ∧ ∀ x ∈ r, ∃ c ∈ l, ∃ a, db.getAccount I my c = .ok a ∧ x = (a.privkey, a.server)
  | [], r, h => by
    injection h with h
    subst h
    exact ⟨fun c hc => (List.not_mem_nil hc).elim, fun x hx => (List.not_mem_nil hx).elim⟩
  | c :: l, r, h => by
    unfold keysOf at h
    split at h
    · cases h
    rename_i a ha
    split at h
    · cases h
    rename_i r' hr
    injection h with h
    subst h
    obtain ⟨h1, h2⟩ := keysOf_mem l r' hr
    refine ⟨fun c' hc => ?_, fun x hx => ?_⟩
    · cases hc with
      | head => exact ⟨a, ha, .head _⟩
      | tail _ hc => obtain ⟨b, hb, hm⟩ := h1 c' hc; exact ⟨b, hb, .tail _ hm⟩
    · cases hx with
      | head => exact ⟨c, .head _, a, ha, rfl⟩
      | tail _ hx => obtain ⟨d, hd, b, hb, e⟩ := h2 x hx; exact ⟨d, .tail _ hd, b, hb, e⟩

theorem delNym_gone {db db' : Db} {id : Bytes} (hw : WF I db) (hd : db.delNym I id = .ok db') : db'.getNym I id = .ok ([], []) := by
  have hm : ¬ I.isMapped id = false := by
    intro hm
    unfold Db.delNym at hd
    rw [if_pos hm] at hd
    cases hd
  obtain ⟨v, n, hv, e, rfl⟩ := delNym_ok hd
  unfold Db.getNym
  rw [if_neg hm]
  have : first (fun n : Nym => n.mapped == id) (db.cascade v).nyms = none := by
    refine first_none_iff.mpr fun r hr => ?_
    obtain ⟨hr1, hr2⟩ := List.mem_filter.mp hr
    refine Bool.eq_false_iff.mpr fun hq => ?_
    have := hw.nymUnique r hr1 (v, n) hv ((eq_of_beq hq).trans e.symm)
    rw [this] at hr2
    simp at hr2
  rw [this]

/-- The steps of `uidDelete`. -/
theorem uidDelete_eq (E : Env σ) (unmapped : Bytes) (yes : Bool) (s : St σ) : uidDelete E I unmapped yes s =
    match I.map unmapped with
    | none => (s, .err .identity)
    | some id =>
      match s.db.getNym I id with
      | .error e => (s, .err (.db e))
      | .ok (old, _) =>
        if old = [] then (s, .err .unknown)
        else if yes = false then (s, .err .aborted)
        else
          match s.db.getAccounts I id with
          | .error e => (s, .err (.db e))
          | .ok contacts =>
            match keysOf I id s.db contacts with
            | .error e => (s, .err (.db e))
            | .ok keys =>
              match s.db.delNym I id with
              | .error e => (s, .err (.db e))
              | .ok db =>
                if (E.deleteKey s.w id).2 then closeAll E keys ⟨(E.deleteKey s.w id).1, db, s.log⟩
                else (⟨(E.deleteKey s.w id).1, db, s.log⟩, .err .deleteKey) := by
  unfold uidDelete
  cases I.map unmapped with
  | none => rfl
  | some id =>
    simp only [bind, andThen, read, write, check]
    cases hn : s.db.getNym I id with
    | error e => rfl
    | ok r =>
      obtain ⟨old, f⟩ := r
      simp only
      by_cases ho : old = []
      · rw [if_pos ho, if_pos ho]; rfl
      rw [if_neg ho, if_neg ho]
      by_cases hy : yes = false
      · rw [if_pos hy, if_pos hy]; rfl
      rw [if_neg hy, if_neg hy]
      simp only [andThen, read, write, check]
      cases ha : s.db.getAccounts I id with
      | error e => rfl
      | ok contacts =>
        simp only
        cases hk : keysOf I id s.db contacts with
        | error e => rfl
        | ok keys =>
          simp only
          cases hd : s.db.delNym I id with
          | error e => rfl
          | ok db =>
            simp only
            cases hw : E.deleteKey s.w id with
            | mk w b =>
              cases b <;> rfl

/-- When deleting a user ID succeeds, the user confirmed it, the user ID was known and is removed
from the message database (C97 says what that means), its key was deleted, and each of its accounts was
closed on its server, and nothing else was. -/
theorem C110_deleted (hI : I.isMapped [] = false) (E : Env σ) (unmapped : Bytes) (yes : Bool) (s s' : St σ) (hs : Reached I s.db)
    (h : uidDelete E I unmapped yes s = (s', .ok ())) :
    yes = true ∧ ∃ id old name, I.map unmapped = some id ∧ s.db.getNym I id = .ok (old, name) ∧ old ≠ [] ∧ s.db.delNym I id = .ok s'.db ∧
      s'.db.getNym I id = .ok ([], []) ∧ (E.deleteKey s.w id).2 = true ∧
      ∃ new, s'.log = s.log ++ new ∧ ∀ e, e ∈ new ↔ ∃ c a, s.db.getAccount I id c = .ok a ∧ e = .closed a.privkey a.server true := by
  rw [uidDelete_eq] at h
  split at h
  · injection h with _ h; cases h
  rename_i id hid
  split at h
  · injection h with _ h; cases h
  rename_i old name hn
  split at h
  · injection h with _ h; cases h
  rename_i ho
  split at h
  · injection h with _ h; cases h
  rename_i hy
  split at h
  · injection h with _ h; cases h
  rename_i contacts hc
  split at h
  · injection h with _ h; cases h
  rename_i keys hk
  split at h
  · injection h with _ h; cases h
  rename_i db hd
  split at h
  case isFalse => injection h with _ h; cases h
  rename_i hw
  obtain ⟨h1, h2⟩ := closeAll_ok E keys _ _ h
  simp only at h1 h2
  obtain ⟨k1, k2⟩ := keysOf_mem contacts keys hk
  obtain ⟨_, hall⟩ := getAccounts_spec hI hs.wf hc
  refine ⟨by simpa using hy, id, old, name, hid, hn, ho, by rw [h1]; exact hd, ?_, hw, _, h2, fun e => ⟨fun he => ?_, ?_⟩⟩
  · rw [h1]; exact delNym_gone hs.wf hd
  · obtain ⟨x, hx, rfl⟩ := List.mem_map.mp he
    obtain ⟨c, _, a, ha, rfl⟩ := k2 x hx
    exact ⟨c, a, ha, rfl⟩
  · rintro ⟨c, a, ha, rfl⟩
    obtain ⟨b, hb, hm⟩ := k1 c (hall c a ha)
    rw [ha] at hb
    injection hb with hb
    subst hb
    exact List.mem_map.mpr ⟨_, hm, rfl⟩

/-- Without the confirmation of the user nothing happens. -/
theorem C110_not_confirmed (E : Env σ) (unmapped : Bytes) (s : St σ) :
    (uidDelete E I unmapped false s).1 = s ∧ (uidDelete E I unmapped false s).2 ≠ .ok () := by
  rw [uidDelete_eq]
  split
  · exact ⟨rfl, nofun⟩
  split
  · exact ⟨rfl, nofun⟩
  split
  · exact ⟨rfl, nofun⟩
  rw [if_pos rfl]
  exact ⟨rfl, nofun⟩

/-- If deleting a user ID fails, and it is not the deletion of the key or of an account that
fails, then nothing happened. -/
theorem C110_failed_unchanged_partial (E : Env σ) (unmapped : Bytes) (yes : Bool) (s s' : St σ) (e : UErr)
    (h : uidDelete E I unmapped yes s = (s', .err e)) (h1 : e ≠ .deleteKey) (h2 : e ≠ .deleteAccount) : s' = s := by
  rw [uidDelete_eq] at h
  repeat' split at h
  all_goals first
    | (injection h with h _; exact h.symm)
    | (exact absurd (closeAll_err E _ _ _ e h) h2)
    | skip
  injection h with _ h
  injection h with h
  exact absurd h.symm h1

/-- If the key cannot be deleted, the deletion cannot be completed: no account was closed, and each
further attempt on the database as it is now, in whatever world, fails at once. -/
theorem C110_not_repeatable_violated (E : Env σ) (unmapped : Bytes) (yes : Bool) (s s' : St σ) (hs : Reached I s.db)
    (h : uidDelete E I unmapped yes s = (s', .err .deleteKey)) :
    s'.log = s.log ∧ ∀ (E' : Env σ) (w : σ) (log : List Ev) (yes' : Bool), uidDelete E' I unmapped yes' ⟨w, s'.db, log⟩ = (⟨w, s'.db, log⟩, .err .unknown) := by
  rw [uidDelete_eq] at h
  split at h
  · injection h with _ h; cases h
  rename_i id hid
  split at h
  · injection h with _ h; cases h
  rename_i old name hn
  split at h
  · injection h with _ h; cases h
  rename_i ho
  split at h
  · injection h with _ h; cases h
  split at h
  · injection h with _ h; cases h
  split at h
  · injection h with _ h; cases h
  split at h
  · injection h with _ h; cases h
  rename_i db hd
  split at h
  · cases closeAll_err E _ _ _ _ h
  injection h with h _
  subst h
  refine ⟨rfl, fun E' w log yes' => ?_⟩
  have hg : db.getNym I id = .ok ([], []) := delNym_gone hs.wf hd
  rw [uidDelete_eq, hid]
  simp only [hg, if_true]

/-! ### C111: the active user ID -/

/-- A row for a mapped identity. -/
def Has (db : Db) (m : Bytes) : Prop := ∃ r ∈ db.nyms, r.2.mapped = m

theorem has_iff {db : Db} (hw : WF I db) (m : Bytes) (hm : I.isMapped m = true) : Has db m ↔ ∃ u f, db.getNym I m = .ok (u, f) ∧ u ≠ [] := by
  unfold Db.getNym
  rw [hm, if_neg (by decide)]
  constructor
  · rintro ⟨r, hr, rfl⟩
    cases hf : first (fun n : Nym => n.mapped == r.2.mapped) db.nyms with
    | none => exact absurd (first_none_iff.mp hf r hr) (by simp)
    | some x => exact ⟨_, _, rfl, (hw.nymFits x (first_mem hf).1).2.2⟩
  · rintro ⟨u, f, h, hu⟩
    cases hf : first (fun n : Nym => n.mapped == m) db.nyms with
    | none => rw [hf] at h; injection h with h; injection h with h _; exact absurd h.symm hu
    | some x => exact ⟨x, (first_mem hf).1, by simpa using (first_mem hf).2⟩

/-- Changes of the user IDs: they come and go only by these operations. -/
theorem has_step {db : Db} (hw : WF I db) (op : Op) (m : Bytes) (h : Has db m) (ho : op ≠ .delNym m) : Has (db.step I op) m := by
  unfold Db.step
  cases he : db.apply I op with
  | error e => exact h
  | ok db' =>
    simp only
    obtain ⟨r, hr, rfl⟩ := h
    have up : ∀ (d : Db) (p : Nym → Bool) (f : Nym → Nym), d.nyms = update p f db.nyms → (∀ n, (f n).mapped = n.mapped) → Has d r.2.mapped := by
      intro d p f e hf
      unfold Has
      rw [e]
      refine ⟨_, List.mem_map.mpr ⟨r, hr, rfl⟩, ?_⟩
      split
      · exact hf _
      · rfl
    by_cases h1 : ∃ m u f, op = .addNym m u f
    · obtain ⟨m, u, f, rfl⟩ := h1
      simp only [Db.apply, Db.addNym] at he
      repeat' split at he
      all_goals first
        | cases he; done
        | skip
      · injection he with he; subst he
        exact ⟨r, mem_insert.mpr (.inl hr), rfl⟩
      · injection he with he; subst he
        refine up _ (fun n : Nym => n.mapped == m) (fun n => { n with unmapped := u, fullName := f }) rfl ?_; intro _; rfl
    by_cases h2 : ∃ m, op = .delNym m
    · obtain ⟨m', rfl⟩ := h2
      obtain ⟨u, n, hn, rfl, rfl⟩ := delNym_ok he
      refine ⟨r, List.mem_filter.mpr ⟨hr, ?_⟩, rfl⟩
      have : r.1 ≠ u := fun e => ho (by rw [sorted_unique hw.nyms hr hn e])
      simpa using this
    by_cases h3 : ∃ m t, op = .setUpkeepAll m t
    · obtain ⟨m, t, rfl⟩ := h3
      simp only [Db.apply, Db.setUpkeepAll] at he
      split at he
      · cases he
      injection he with he; subst he
      refine up _ (fun n : Nym => n.mapped == m) (fun n => { n with upkeepAll := t }) rfl ?_; intro _; rfl
    by_cases h4 : ∃ m t, op = .setUpkeepAccounts m t
    · obtain ⟨m, t, rfl⟩ := h4
      simp only [Db.apply, Db.setUpkeepAccounts] at he
      split at he
      · cases he
      injection he with he; subst he
      refine up _ (fun n : Nym => n.mapped == m) (fun n => { n with upkeepAccounts := t }) rfl ?_; intro _; rfl
    rw [show Has db' r.2.mapped ↔ ∃ x ∈ db'.nyms, x.2.mapped = r.2.mapped from Iff.rfl,
      nyms_apply op (fun m u f e => h1 ⟨m, u, f, e⟩) (fun m e => h2 ⟨m, e⟩) (fun m t e => h3 ⟨m, t, e⟩) (fun m t e => h4 ⟨m, t, e⟩) he]
    exact ⟨r, hr, rfl⟩

/-- No operation but `AddNym` makes a user ID. -/
theorem has_back {db : Db} (op : Op) (m : Bytes) (ho : ∀ m u f, op ≠ .addNym m u f) (h : Has (db.step I op) m) : Has db m := by
  unfold Db.step at h
  cases he : db.apply I op with
  | error e => rw [he] at h; exact h
  | ok db' =>
    rw [he] at h
    obtain ⟨r, hr, rfl⟩ := h
    have up : ∀ (d : Db) (p : Nym → Bool) (f : Nym → Nym), d.nyms = update p f db.nyms → (∀ n, (f n).mapped = n.mapped) → r ∈ d.nyms → Has db r.2.mapped := by
      intro d p f e hf hr
      rw [e] at hr
      obtain ⟨a, ha, e | ⟨_, e⟩⟩ := of_update hr
      · exact ⟨_, ha, by rw [e]⟩
      · exact ⟨_, ha, by rw [e, hf]⟩
    simp only at hr
    by_cases h2 : ∃ m, op = .delNym m
    · obtain ⟨m', rfl⟩ := h2
      obtain ⟨u, n, hn, rfl, rfl⟩ := delNym_ok he
      exact ⟨r, (List.mem_filter.mp hr).1, rfl⟩
    by_cases h3 : ∃ m t, op = .setUpkeepAll m t
    · obtain ⟨m, t, rfl⟩ := h3
      simp only [Db.apply, Db.setUpkeepAll] at he
      split at he
      · cases he
      injection he with he; subst he
      refine up _ (fun n : Nym => n.mapped == m) (fun n => { n with upkeepAll := t }) rfl ?_ hr; intro _; rfl
    by_cases h4 : ∃ m t, op = .setUpkeepAccounts m t
    · obtain ⟨m, t, rfl⟩ := h4
      simp only [Db.apply, Db.setUpkeepAccounts] at he
      split at he
      · cases he
      injection he with he; subst he
      refine up _ (fun n : Nym => n.mapped == m) (fun n => { n with upkeepAccounts := t }) rfl ?_ hr; intro _; rfl
    rw [nyms_apply op ho (fun m e => h2 ⟨m, e⟩) (fun m t e => h3 ⟨m, t, e⟩) (fun m t e => h4 ⟨m, t, e⟩) he] at hr
    exact ⟨r, hr, rfl⟩

/-- The commands of a user, and what other commands do to the message database. -/
inductive Act
  | new (n : Nat) (unmapped fullName : Bytes) (minDelay maxDelay : Int)
  | edit (unmapped fullName : Bytes)
  | switch (unmapped : Bytes)
  | delete (unmapped : Bytes) (yes : Bool)
  | other (op : Op)

/-- The execution of a command. -/
def act (E : Env σ) (I : Ids) : Act → M σ Unit
  | .new n u f a b => uidNew E I n u f a b
  | .edit u f => uidEdit I u f
  | .switch u => uidSwitch I u
  | .delete u yes => uidDelete E I u yes
  | .other op => write fun db => db.apply I op

/-- The other commands do not make or delete user IDs and do not set the active one. -/
def Act.allowed : Act → Prop
  | .other (.addNym _ _ _) => False
  | .other (.delNym _) => False
  | .other (.addValue k _) => k ≠ activeKey
  | _ => True

/-- The states a user can reach. The results of the commands do not matter. With `strict` the active
user ID is never deleted. -/
inductive History (E : Env σ) (I : Ids) (strict : Bool) : St σ → Prop
  | start (w : σ) (log : List Ev) : History E I strict ⟨w, Db.new, log⟩
  | act (s : St σ) (a : Act) : History E I strict s → a.allowed →
      (strict = true → ∀ u yes v, a = .delete u yes → s.db.getValue activeKey = .ok v → I.map v ≠ I.map u) → History E I strict (act E I a s).1

/-- The first claim of C111. -/
def Names (I : Ids) (db : Db) : Prop := ∀ a, db.getValue activeKey = .ok a → a = [] ∨ ∃ id, I.map a = some id ∧ Has db id

/-- The second claim of C111. -/
def Chosen (db : Db) : Prop := db.getValue activeKey = .ok [] → db.nyms = []

theorem active_apply {db db' : Db} (op : Op) (h : ∀ v, op ≠ .addValue activeKey v) (he : db.apply I op = .ok db') : db'.getValue activeKey = db.getValue activeKey := by
  have := getValue_step (I := I) db op activeKey_ne
  unfold Db.step at this
  rw [he] at this
  have hw : written activeKey op = none := by
    cases op with
    | addValue k v =>
      show (if k = activeKey ∧ v ≠ [] then some v else none) = none
      rw [if_neg]
      rintro ⟨rfl, _⟩
      exact h v rfl
    | _ => rfl
  rw [hw] at this
  exact this

theorem nyms_nil_iff {db : Db} : db.nyms = [] ↔ ∀ m, ¬ Has db m := by
  constructor
  · rintro h m ⟨r, hr, _⟩
    rw [h] at hr
    exact List.not_mem_nil hr
  · intro h
    cases hn : db.nyms with
    | nil => rfl
    | cons r l => exact absurd ⟨r, by rw [hn]; exact .head _, rfl⟩ (h r.2.mapped)

theorem step_of_apply {db db' : Db} {op : Op} (h : db.apply I op = .ok db') : db.step I op = db' := by
  unfold Db.step
  rw [h]

theorem reached_run {db : Db} (h : Reached I db) (ops : List Op) : Reached I (db.run I ops) := by
  obtain ⟨l, rfl⟩ := h
  exact ⟨l ++ ops, by unfold Db.run; rw [List.foldl_append]⟩

/-- What deleting a user ID does to the database. -/
theorem uidDelete_db (E : Env σ) (unmapped : Bytes) (yes : Bool) (s : St σ) : (uidDelete E I unmapped yes s).1.db = s.db ∨
    ∃ id, I.map unmapped = some id ∧ s.db.apply I (.delNym id) = .ok (uidDelete E I unmapped yes s).1.db := by
  rw [uidDelete_eq]
  repeat' split
  all_goals first
    | exact .inl rfl
    | skip
  · rename_i id hid _ _ _ _ _ _ _ _ _ _ _ _ _ db hd _
    refine .inr ⟨id, hid, ?_⟩
    rw [show Db.apply I s.db (.delNym id) = s.db.delNym I id from rfl, hd, closeAll_db]
  · rename_i id hid _ _ _ _ _ _ _ _ _ _ _ _ _ db hd _
    exact .inr ⟨id, hid, hd⟩

/-- What the edit of a user ID does to the database. -/
theorem uidEdit_db (unmapped fullName : Bytes) (s : St σ) : (uidEdit I unmapped fullName s).1.db = s.db ∨
    ∃ id, I.map unmapped = some id ∧ (∃ u f, s.db.getNym I id = .ok (u, f) ∧ u ≠ []) ∧ s.db.apply I (.addNym id unmapped fullName) = .ok (uidEdit I unmapped fullName s).1.db := by
  unfold uidEdit
  cases hid : I.map unmapped with
  | none => exact .inl rfl
  | some id =>
    simp only [bind, andThen, read]
    cases hn : s.db.getNym I id with
    | error e => exact .inl rfl
    | ok r =>
      obtain ⟨old, f⟩ := r
      simp only
      by_cases ho : old = []
      · rw [if_pos ho]; exact .inl rfl
      rw [if_neg ho]
      unfold write
      cases ha : s.db.addNym I id unmapped fullName with
      | error e => exact .inl (by simp only [ha])
      | ok db => exact .inr ⟨id, rfl, ⟨old, f, hn, ho⟩, by simp only [ha, Db.apply]⟩

/-- What the switch to a user ID does to the database. -/
theorem uidSwitch_db (unmapped : Bytes) (s : St σ) : (uidSwitch I unmapped s).1.db = s.db ∧ (uidSwitch I unmapped s).2 ≠ .ok () ∨
    ∃ id, I.map unmapped = some id ∧ (∃ u f, s.db.getNym I id = .ok (u, f) ∧ u ≠ []) ∧ (uidSwitch I unmapped s).2 = .ok () ∧
      s.db.apply I (.addValue activeKey id) = .ok (uidSwitch I unmapped s).1.db := by
  unfold uidSwitch
  cases hid : I.map unmapped with
  | none => exact .inl ⟨rfl, nofun⟩
  | some id =>
    simp only [bind, andThen, read]
    cases hn : s.db.getNym I id with
    | error e => exact .inl ⟨rfl, nofun⟩
    | ok r =>
      obtain ⟨old, f⟩ := r
      simp only
      by_cases ho : old = []
      · rw [if_pos ho]; exact .inl ⟨rfl, nofun⟩
      rw [if_neg ho]
      unfold write
      cases ha : s.db.addValue activeKey id with
      | error e => exact .inl ⟨by simp only [ha], by simp only [ha]; exact nofun⟩
      | ok db => exact .inr ⟨id, rfl, ⟨old, f, hn, ho⟩, by simp only [ha], by simp only [ha, Db.apply]⟩

theorem mapped_of_getNym {db : Db} {id : Bytes} {r : Bytes × Bytes} (h : db.getNym I id = .ok r) : I.isMapped id = true := by
  unfold Db.getNym at h
  cases hq : I.isMapped id with
  | true => rfl
  | false => rw [hq] at h; cases h

theorem addValue_active {db db' : Db} {v : Bytes} (h : db.apply I (.addValue activeKey v) = .ok db') : v ≠ [] ∧ db'.getValue activeKey = .ok v ∧ db'.nyms = db.nyms := by
  have hv : v ≠ [] := by
    rintro rfl
    simp only [Db.apply, Db.addValue, if_neg activeKey_ne, if_true] at h
    cases h
  refine ⟨hv, ?_, nyms_apply _ (by intros; intro h; cases h) (by intros; intro h; cases h) (by intros; intro h; cases h) (by intros; intro h; cases h) h⟩
  have := getValue_step (I := I) db (.addValue activeKey v) activeKey_ne
  rw [step_of_apply h] at this
  simp only [written] at this
  rw [if_pos ⟨trivial, hv⟩] at this
  exact this

/-- A step that is no deletion of the active user ID and does not set it. -/
theorem names_apply {db db' : Db} (hw : WF I db) (op : Op) (h : ∀ v, op ≠ .addValue activeKey v) (hd : ∀ v id, db.getValue activeKey = .ok v → I.map v = some id → op ≠ .delNym id)
    (he : db.apply I op = .ok db') (hn : Names I db) : Names I db' := by
  intro a ha
  rw [active_apply op h he] at ha
  rcases hn a ha with h1 | ⟨id, h1, h2⟩
  · exact .inl h1
  · refine .inr ⟨id, h1, ?_⟩
    rw [← step_of_apply he]
    exact has_step hw op id h2 (hd a id ha h1)

theorem chosen_apply {db db' : Db} (op : Op) (h : ∀ v, op ≠ .addValue activeKey v) (hd : ∀ m u f, op ≠ .addNym m u f)
    (he : db.apply I op = .ok db') (hn : Chosen db) : Chosen db' := by
  intro ha
  rw [active_apply op h he] at ha
  have := nyms_nil_iff.mp (hn ha)
  refine nyms_nil_iff.mpr fun m hm => this m ?_
  rw [← step_of_apply he] at hm
  exact has_back op m hd hm

theorem history_inv (hI : Idempotent I) (E : Env σ) (strict : Bool) (s : St σ) (h : History E I strict s) :
    Reached I s.db ∧ Chosen s.db ∧ (strict = true → Names I s.db) := by
  induction h with
  | start w log => exact ⟨⟨[], rfl⟩, fun _ => rfl, fun _ a ha => by injection ha with ha; exact .inl ha.symm⟩
  | act s a _ hal hst ih =>
    obtain ⟨i1, i2, i3⟩ := ih
    cases a with
    | new n u f mn mx =>
      rcases changes_uidNew (I := I) E n u f mn mx s i1.wf with ⟨e, _⟩ | ⟨_, id, key, server, secret, hid, hk, hs⟩
      · show Reached I (uidNew E I n u f mn mx s).1.db ∧ _
        rw [show (act E I (.new n u f mn mx) s).1.db = s.db from e, e]
        exact ⟨i1, i2, i3⟩
      · show Reached I (uidNew E I n u f mn mx s).1.db ∧ Chosen (uidNew E I n u f mn mx s).1.db ∧ (strict = true → Names I (uidNew E I n u f mn mx s).1.db)
        generalize (uidNew E I n u f mn mx s).1.db = db' at hs
        obtain ⟨a, ha, hb, hr⟩ := hs.active
        have r' : Reached I db' := by rw [hr]; exact reached_run i1 _
        refine ⟨r', fun h0 => ?_, fun hstrict => ?_⟩
        · rw [hb] at h0
          injection h0 with h0
          split at h0
          · exact absurd h0 hs.named
          · rename_i hne; exact absurd h0 hne
        · intro v hv
          rw [hb] at hv
          injection hv with hv
          subst hv
          split
          · exact .inr ⟨id, hid, (has_iff r'.wf id (mapped_of_getNym hs.nym)).mpr ⟨_, _, hs.nym, hs.named⟩⟩
          · rename_i hne
            rcases i3 hstrict a ha with h1 | ⟨id', h1, h2⟩
            · exact .inl h1
            · refine .inr ⟨id', h1, ?_⟩
              rw [hr, if_neg hne]
              refine has_step ?_ _ _ (has_step i1.wf _ _ h2 nofun) nofun
              exact (reached_run i1 [.addNym id u f]).wf
    | edit u f =>
      show Reached I (uidEdit I u f s).1.db ∧ Chosen (uidEdit I u f s).1.db ∧ (strict = true → Names I (uidEdit I u f s).1.db)
      rcases uidEdit_db (I := I) u f s with e | ⟨id, _, hk, he⟩
      · rw [e]; exact ⟨i1, i2, i3⟩
      · refine ⟨i1.apply _ he, fun h0 => ?_, fun hs => names_apply i1.wf _ (by intros; intro h; cases h) (by intros; intro h; cases h) he (i3 hs)⟩
        rw [active_apply _ (by intros; intro h; cases h) he] at h0
        obtain ⟨x, y, hn, hx⟩ := hk
        exact absurd ((has_iff i1.wf id (mapped_of_getNym hn)).mpr ⟨x, y, hn, hx⟩) (nyms_nil_iff.mp (i2 h0) id)
    | switch u =>
      show Reached I (uidSwitch I u s).1.db ∧ Chosen (uidSwitch I u s).1.db ∧ (strict = true → Names I (uidSwitch I u s).1.db)
      rcases uidSwitch_db (I := I) u s with ⟨e, _⟩ | ⟨id, hid, hk, _, he⟩
      · rw [e]; exact ⟨i1, i2, i3⟩
      · obtain ⟨h1, h2, h3⟩ := addValue_active he
        refine ⟨i1.apply _ he, fun h0 => ?_, fun _ v hv => ?_⟩
        · rw [h2] at h0
          injection h0 with h0
          exact absurd h0 h1
        · rw [h2] at hv
          injection hv with hv
          subst hv
          obtain ⟨x, y, hn, hx⟩ := hk
          obtain ⟨r, hr, hm⟩ := (has_iff i1.wf id (mapped_of_getNym hn)).mpr ⟨x, y, hn, hx⟩
          exact .inr ⟨id, hI u id hid, r, by rw [h3]; exact hr, hm⟩
    | delete u yes =>
      show Reached I (uidDelete E I u yes s).1.db ∧ Chosen (uidDelete E I u yes s).1.db ∧ (strict = true → Names I (uidDelete E I u yes s).1.db)
      rcases uidDelete_db (I := I) E u yes s with e | ⟨id, hid, he⟩
      · rw [e]; exact ⟨i1, i2, i3⟩
      · refine ⟨i1.apply _ he, chosen_apply _ (by intros; intro h; cases h) (by intros; intro h; cases h) he i2, fun hs => names_apply i1.wf _ (by intros; intro h; cases h) (fun v id' hv hid' e => ?_) he (i3 hs)⟩
        injection e with e
        subst e
        exact hst hs u yes v rfl hv (hid'.trans hid.symm)
    | other op =>
      show Reached I (write (fun db => db.apply I op) s).1.db ∧ Chosen (write (fun db => db.apply I op) s).1.db ∧ (strict = true → Names I (write (fun db => db.apply I op) s).1.db)
      unfold write
      cases he : s.db.apply I op with
      | error e => simp only [he]; exact ⟨i1, i2, i3⟩
      | ok db' =>
        simp only [he]
        have o1 : ∀ v, op ≠ .addValue activeKey v := by rintro v rfl; exact hal rfl
        refine ⟨i1.apply _ he, chosen_apply _ o1 (by rintro m u f rfl; exact hal) he i2, fun hs => names_apply i1.wf _ o1 (by rintro _ _ _ _ rfl; exact hal) he (i3 hs)⟩

/-- As long as the active user ID is not deleted, the user ID that is shown as active and used by the
commands, if there is one, is in the message database. -/
theorem C111_exists_partial (hI : Idempotent I) (E : Env σ) (s : St σ) (h : History E I true s) (a : Bytes) (hs : (uidActive s).2 = .ok a) :
    ∃ id u f, I.map a = some id ∧ s.db.getNym I id = .ok (u, f) ∧ u ≠ [] := by
  have hv := getValue_first activeKey_ne s.db
  generalize ((first (fun r : Bytes × Bytes => r.1 == activeKey) s.db.values).map fun r => r.2.2).getD [] = b at hv
  obtain ⟨ha, hne⟩ : s.db.getValue activeKey = .ok a ∧ a ≠ [] := by
    simp only [uidActive, bind, andThen, read, hv] at hs
    split at hs
    · cases hs
    · rename_i hb
      injection hs with hs
      subst hs
      exact ⟨hv, hb⟩
  obtain ⟨h1, _, h3⟩ := history_inv hI E true s h
  rcases h3 rfl a ha with h4 | ⟨id, h4, h5⟩
  · exact absurd h4 hne
  · have hm : I.isMapped id = true := by
      obtain ⟨r, hr, rfl⟩ := h5
      exact (h1.wf.nymFits r hr).1
    obtain ⟨u, f, h6, h7⟩ := (has_iff h1.wf id hm).mp h5
    exact ⟨id, u, f, h4, h6, h7⟩

/-- As long as there is a user ID, one is active. -/
theorem C111_some (hI : Idempotent I) (E : Env σ) (s : St σ) (h : History E I false s) (hn : s.db.getNyms true ≠ []) :
    ∃ a, (uidActive s).2 = .ok a ∧ a ≠ [] := by
  obtain ⟨h1, h2, _⟩ := history_inv hI E false s h
  have hv := getValue_first activeKey_ne s.db
  generalize ((first (fun r : Bytes × Bytes => r.1 == activeKey) s.db.values).map fun r => r.2.2).getD [] = a at hv
  have ha : a ≠ [] := by
    rintro rfl
    refine hn ?_
    unfold Db.getNyms
    rw [h2 hv]
    rfl
  refine ⟨a, ?_, ha⟩
  simp only [uidActive, bind, andThen, read, hv, if_neg ha]
  rfl

/-- After a switch to a user ID that is the active one, in its mapped form; a switch to a user ID that is
not in the database changes nothing. -/
theorem C111_switched (unmapped : Bytes) (s : St σ) :
    ((uidSwitch I unmapped s).2 = .ok () → ∃ id, I.map unmapped = some id ∧ (uidActive (uidSwitch I unmapped s).1).2 = .ok id ∧ ∃ u f, s.db.getNym I id = .ok (u, f) ∧ u ≠ []) ∧
    ((uidSwitch I unmapped s).2 ≠ .ok () → (uidSwitch I unmapped s).1.db = s.db) := by
  rcases uidSwitch_db (I := I) unmapped s with ⟨e, hr⟩ | ⟨id, hid, hk, hr, he⟩
  · exact ⟨fun h => absurd h hr, fun _ => e⟩
  · refine ⟨fun _ => ⟨id, hid, ?_, hk⟩, fun h => absurd hr h⟩
    obtain ⟨h1, h2, _⟩ := addValue_active he
    simp only [uidActive, bind, andThen, read, h2, if_neg h1]
    rfl

/-! ### concrete cases -/

namespace Toy

def world : Env (W × Proc) := withProc env (run true .ok)

/-- The world in which `mutecrypt` cannot delete keys. -/
def stuck : Env (W × Proc) := withProc { env with deleteKey := fun w _ => (w, false) } (run true .ok)

/-- A user ID is made. -/
def one : St (W × Proc) := (act world plainI (.new 9 [1, 64, 2] [77] 1 2) begin).1

/-- And another one. -/
def two : St (W × Proc) := (act world plainI (.new 9 [3, 64, 2] [78] 1 2) one).1

theorem one_reached (strict : Bool) : History world plainI strict one := .act _ _ (.start _ _) trivial (fun _ _ _ _ h => by cases h)

theorem two_reached (strict : Bool) : History world plainI strict two := .act _ _ (one_reached strict) trivial (fun _ _ _ _ h => by cases h)

/-- The hypotheses of `C110_deleted` are met, with an account that is closed. -/
example : plainI.isMapped [] = false ∧ Reached plainI two.db ∧ (uidDelete world plainI [3, 64, 2] true two).2 = .ok () ∧
    .closed [7] [10] true ∈ (uidDelete world plainI [3, 64, 2] true two).1.log :=
  ⟨by decide, (history_inv plainI_idempotent world false two (two_reached false)).1, by decide +kernel, by decide +kernel⟩

/-- The hypothesis of `C110_not_repeatable_violated` is met, and there was an account. -/
example : (uidDelete stuck plainI [3, 64, 2] true two).2 = .err .deleteKey ∧ (two.db.getAccounts plainI [3, 64, 2]) = .ok [[]] := by decide +kernel

/-- The hypotheses of `C110_failed_unchanged_partial` are met. -/
example : (uidDelete world plainI [5, 64, 2] true two).2 = .err .unknown := by decide +kernel

/-- The hypotheses of `C111_exists_partial` and `C111_some` are met, also after a switch. -/
example : (uidActive two).2 = .ok [1, 64, 2] ∧ two.db.getNyms true = [[1, 64, 2], [3, 64, 2]] ∧
    (uidSwitch plainI [3, 64, 2] two).2 = .ok () ∧ (uidActive (uidSwitch plainI [3, 64, 2] two).1).2 = .ok [3, 64, 2] := by decide +kernel

/-- Deleting the active user ID leaves it active, though it is no longer in the database, and it
stays active when the user makes another one. -/
theorem C111_exists_violated : ∃ s : St (W × Proc), History world plainI false s ∧ s.db.getNyms true = [[3, 64, 2]] ∧
    s.db.getValue activeKey = .ok [1, 64, 2] ∧ s.db.getNym plainI [1, 64, 2] = .ok ([], []) :=
  ⟨(act world plainI (.new 9 [3, 64, 2] [78] 1 2) (act world plainI (.delete [1, 64, 2] true) one).1).1,
    .act _ _ (.act _ _ (one_reached false) trivial nofun) trivial nofun, by decide +kernel, by decide +kernel, by decide +kernel⟩

end Toy

end Verif.Ctrl.Uid

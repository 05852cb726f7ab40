/-
Values, the message ID cache, contacts and nyms.
-/
import Verif.Msgdb.Inv

namespace Verif.Msgdb
open Verif.Sql

variable {I : Ids} {db db' : Db}

/-! ## C49: the key/value store is a map -/

/-- The value an operation writes for a key, if any: writes with an empty key or an empty value
are refused. -/
def written (k : Bytes) : Op → Option Bytes
  | .addValue k' v => if k' = k ∧ v ≠ [] then some v else none
  | _ => none

/-- The value written last for a key; empty if there was none. -/
def lastWritten (k : Bytes) (ops : List Op) : Bytes := (ops.reverse.findSome? (written k)).getD []

theorem getValue_first {k : Bytes} (hk : k ≠ []) (db : Db) :
    db.getValue k = .ok (((first (fun r : Bytes × Bytes => r.1 == k) db.values).map fun r => r.2.2).getD []) := by
  unfold Db.getValue
  rw [if_neg hk]
  cases first (fun r : Bytes × Bytes => r.1 == k) db.values <;> rfl

theorem first_none_iff {α : Type} {p : α → Bool} {t : Table α} : first p t = none ↔ ∀ r ∈ t, p r.2 = false := by
  unfold first
  rw [List.find?_eq_none]
  exact ⟨fun h r hr => by simpa using h r hr, fun h r hr => by simp [h r hr]⟩

theorem values_apply (op : Op) (h : ∀ k v, op ≠ .addValue k v) (he : db.apply I op = .ok db') : db'.values = db.values := by
  cases op with
  | addValue k v => exact absurd rfl (h k v)
  | _ =>
    simp only [Db.apply, Db.addNym, Db.delNym, Db.setUpkeepAll, Db.setUpkeepAccounts, Db.addContact, Db.removeContact,
      Db.addAccount, Db.setAccountTime, Db.setAccountLastMsg, Db.addMessage, Db.readMessage, Db.delMessage, Db.addOutQueue,
      Db.setOutQueue, Db.removeOutQueue, Db.retractOutQueue, Db.setResend, Db.clearResend, Db.addInQueue, Db.setInQueue,
      Db.removeInQueue, Db.delInQueue, Db.addCache, Db.removeCache] at he
    repeat' split at he
    all_goals first
      | cases he; done
      | (injection he with he; subst he; rfl)

theorem getValue_step (db : Db) (op : Op) {k : Bytes} (hk : k ≠ []) :
    (db.step I op).getValue k = match written k op with
      | some v => .ok v
      | none => db.getValue k := by
  by_cases hv : ∃ k' v, op = .addValue k' v
  · obtain ⟨k', v, rfl⟩ := hv
    simp only [written, Db.step, Db.apply, Db.addValue]
    by_cases hk' : k' = []
    · subst hk'
      rw [if_pos rfl, if_neg (fun h => hk h.1.symm)]
    rw [if_neg hk']
    by_cases hv : v = []
    · subst hv
      rw [if_pos rfl, if_neg (fun h => h.2 rfl)]
    rw [if_neg hv]
    by_cases hs : (select (fun r : Bytes × Bytes => r.1 == k') db.values).length = 0
    · rw [if_pos hs]
      have hn := select_nil_iff.mp hs
      simp only [getValue_first hk, first_insert]
      by_cases e : k' = k
      · subst e
        rw [first_none_iff.mpr hn]
        simp [hv]
      · simp [e]
    · rw [if_neg hs]
      simp only [getValue_first hk]
      rw [first_update _ _ (fun r : Bytes × Bytes => (r.1, v)) _ (fun a _ => rfl)]
      by_cases e : k' = k
      · subst e
        rw [if_pos ⟨rfl, hv⟩]
        cases hf : first (fun r : Bytes × Bytes => r.1 == k') db.values with
        | none => exact absurd (select_nil_iff.mpr (first_none_iff.mp hf)) hs
        | some r =>
          have := eq_of_beq (first_mem hf).2
          simp [this]
      · rw [if_neg (fun h => e h.1)]
        cases hf : first (fun r : Bytes × Bytes => r.1 == k) db.values with
        | none => rfl
        | some r =>
          have h2 := (first_mem hf).2
          have h3 : r.2.1 ≠ k' := by
            simp only [beq_iff_eq] at h2
            rw [h2]
            exact Ne.symm e
          simp [h3]
  · have h1 : ∀ k v, op ≠ .addValue k v := fun k v e => hv ⟨k, v, e⟩
    have h2 : written k op = none := by
      cases op with
      | addValue k v => exact absurd rfl (h1 k v)
      | _ => rfl
    rw [h2]
    unfold Db.step
    cases he : db.apply I op with
    | error e => rfl
    | ok d => simp only [getValue_first hk, values_apply op h1 he]

/-- **C49** A value read is the value most recently written for that key, or empty if there was
none, after every history of operations on the database. -/
theorem C49_value_is_last_write (I : Ids) (ops : List Op) (k : Bytes) (hk : k ≠ []) :
    (Db.new.run I ops).getValue k = .ok (lastWritten k ops) := by
  have gen : ∀ (ops : List Op) (db : Db), (db.run I ops).getValue k = match ops.reverse.findSome? (written k) with
      | some v => .ok v
      | none => db.getValue k := by
    intro ops
    induction ops with
    | nil => intro db; rfl
    | cons op ops ih =>
      intro db
      rw [show db.run I (op :: ops) = (db.step I op).run I ops from rfl, ih, getValue_step db op hk]
      simp only [List.reverse_cons, List.findSome?_append]
      cases ops.reverse.findSome? (written k) with
      | some v => rfl
      | none =>
        simp only [Option.none_or, List.findSome?_cons, List.findSome?_nil]
        cases written k op <;> rfl
  rw [gen]
  unfold lastWritten
  cases ops.reverse.findSome? (written k) with
  | some v => rfl
  | none => simp [getValue_first hk, Db.new, first]

/-- Identities for examples: every string is mapped. -/
def idI : Ids := ⟨some⟩

example : (Db.new.run idI [.addValue [1] [7], .addValue [2] [8], .addValue [1] [9], .addValue [1] []]).getValue [1] = .ok [9] := by
  rw [C49_value_is_last_write _ _ _ (by decide)]; rfl

/-! ## C50: the message ID cache -/

theorem pair_cases (hw : WF I db) {m c m' c' : Bytes} {r : Nat × Nat} (h : db.pair I m c = .ok r) (h' : db.pair I m' c' = .ok r) :
    m = m' ∧ c = c' := by
  obtain ⟨h1, h2⟩ := pair_ok h
  obtain ⟨h1', h2'⟩ := pair_ok h'
  obtain ⟨n, hn, e⟩ := nymUID_some h1
  obtain ⟨n', hn', e'⟩ := nymUID_some h1'
  have := sorted_unique hw.nyms hn hn' rfl
  injection this with _ this
  refine ⟨by rw [← e, ← e', this], ?_⟩
  have pos : ∀ {u : Nat} {c : Bytes} {x : Nat}, db.contactUID u c = some x → x ≠ 0 := fun hx => by
    obtain ⟨k, hk, _⟩ := contactUID_some hx
    exact Nat.pos_iff_ne_zero.mp (hw.contacts.2 _ hk)
  by_cases hc : c = [] <;> by_cases hc' : c' = []
  · rw [hc, hc']
  · rw [if_pos hc] at h2; rw [if_neg hc'] at h2'
    exact absurd h2 (pos h2')
  · rw [if_neg hc] at h2; rw [if_pos hc'] at h2'
    exact absurd h2' (pos h2)
  · rw [if_neg hc] at h2; rw [if_neg hc'] at h2'
    obtain ⟨k, hk, _, ek⟩ := contactUID_some h2
    obtain ⟨k', hk', _, ek'⟩ := contactUID_some h2'
    have := sorted_unique hw.contacts hk hk' rfl
    injection this with _ this
    rw [← ek, ← ek', this]

theorem pair_cache (t : Table CacheEntry) (m c : Bytes) : ({ db with cache := t } : Db).pair I m c = db.pair I m c := rfl

theorem select_filter_other {α : Type} {t : Table α} {p : α → Bool} {q : Nat × α → Bool} (h : ∀ r ∈ t, p r.2 = true → q r = true) :
    select p (t.filter q) = select p t := by
  unfold select
  rw [List.filter_filter]
  exact List.filter_congr fun r hr => by
    cases hp : p r.2 with
    | false => rfl
    | true => simp [h r hr hp]

theorem cut_at {t : Table CacheEntry} (hs : t.Pairwise (fun r s => r.1 < s.1)) {p : CacheEntry → Bool} {id : Bytes} {e : Nat} {a : CacheEntry}
    (hf : first (fun x => p x && x.messageID == id) t = some (e, a)) :
    ∃ pre post, (select p t).map (fun r => r.2.messageID) = pre ++ id :: post ∧ id ∉ pre ∧
      (select p (t.filter fun r => !(p r.2 && decide (r.1 < e)))).map (fun r => r.2.messageID) = id :: post := by
  induction t with
  | nil => cases hf
  | cons r t ih =>
    obtain ⟨hlt, hs'⟩ := List.pairwise_cons.mp hs
    unfold first at hf
    rw [List.find?_cons] at hf
    cases hp : p r.2 with
    | false =>
      simp only [hp, Bool.false_and] at hf
      obtain ⟨pre, post, h1, h2, h3⟩ := ih hs' hf
      refine ⟨pre, post, ?_, h2, ?_⟩
      · simpa [select, List.filter_cons, hp] using h1
      · simpa [select, List.filter_cons, hp] using h3
    | true =>
      simp only [hp, Bool.true_and] at hf
      cases hid : r.2.messageID == id with
      | true =>
        simp only [hid] at hf
        injection hf with hf
        subst hf
        refine ⟨[], (select p t).map (fun r => r.2.messageID), ?_, by simp, ?_⟩
        · simp only [select, List.filter_cons, hp, if_true, List.map_cons, List.nil_append]
          rw [eq_of_beq hid]
        · rw [List.filter_cons]
          simp only [hp, Nat.lt_irrefl, decide_false, Bool.and_false, Bool.not_false, if_true]
          simp only [select, List.filter_cons, hp, if_true, List.map_cons]
          rw [eq_of_beq hid]
          congr 2
          rw [List.filter_filter]
          refine List.filter_congr fun s hsm => ?_
          have : ¬ s.1 < e := by have := hlt s hsm; simp only at this; omega
          simp [this]
      | false =>
        simp only [hid] at hf
        obtain ⟨pre, post, h1, h2, h3⟩ := ih hs' hf
        have hre : r.1 < e := hlt (e, a) (List.mem_of_find?_eq_some hf)
        refine ⟨r.2.messageID :: pre, post, ?_, ?_, ?_⟩
        · simp only [select, List.filter_cons, hp, if_true, List.map_cons, List.cons_append]
          rw [← h1]; rfl
        · intro hm
          rcases List.mem_cons.mp hm with e | hm
          · rw [← e] at hid; simp at hid
          · exact h2 hm
        · rw [List.filter_cons]
          simp only [hp, hre, decide_true, Bool.and_true, Bool.not_true, Bool.false_eq_true, if_false]
          exact h3

/-- **C50** Trimming the cache of an account at an ID keeps that ID and everything added after it,
removes everything added before it, and does not touch the cache of any other account. The list of
an account is in the order in which its IDs were added. -/
theorem C50_trim_keeps_newer (ops : List Op) (hdb : db = Db.new.run I ops) (my c id : Bytes)
    (h : db.removeCache I my c id = .ok db') :
    (∃ pre post, db.getCache I my c = .ok (pre ++ id :: post) ∧ id ∉ pre ∧ db'.getCache I my c = .ok (id :: post)) ∧
    ∀ my' c', (my', c') ≠ (my, c) → db'.getCache I my' c' = db.getCache I my' c' := by
  have hw : WF I db := by rw [hdb]; exact wf_reach ops
  unfold Db.removeCache at h
  split at h
  · cases h
  cases hp : db.pair I my c with
  | error e => simp only [hp] at h; cases h
  | ok r =>
    obtain ⟨u, v⟩ := r
    simp only [hp] at h
    split at h
    · cases h
    rename_i e a hf
    injection h with h
    subst h
    constructor
    · obtain ⟨pre, post, h1, h2, h3⟩ := cut_at hw.cache.1 hf
      refine ⟨pre, post, ?_, h2, ?_⟩
      · simp only [Db.getCache, hp, h1]
      · simp only [Db.getCache, pair_cache, hp, h3]
    · intro my' c' hne
      simp only [Db.getCache, pair_cache]
      cases hp' : db.pair I my' c' with
      | error e => rfl
      | ok r' =>
        obtain ⟨u', v'⟩ := r'
        simp only
        rw [select_filter_other]
        intro s _ hs
        simp only [isCached, Bool.and_eq_true, beq_iff_eq] at hs
        by_cases hsame : u' = u ∧ v' = v
        · exfalso
          obtain ⟨rfl, rfl⟩ := hsame
          obtain ⟨e1, e2⟩ := pair_cases hw hp' hp
          exact hne (by rw [e1, e2])
        · rw [← hs.1, ← hs.2] at hsame
          have : isCached u v s.2 = false := by
            simp only [isCached, Bool.and_eq_false_iff, beq_eq_false_iff_ne]
            by_cases hu : s.2.myID = u
            · exact .inr fun hv => hsame ⟨hu, hv⟩
            · exact .inl hu
          simp [this]

/-- **C50** Adding an ID puts it at the end of the list of its account and nowhere else. -/
theorem C50_add_appends (ops : List Op) (hdb : db = Db.new.run I ops) (my c id : Bytes)
    (h : db.addCache I my c id = .ok db') :
    (∃ l, db.getCache I my c = .ok l ∧ db'.getCache I my c = .ok (l ++ [id])) ∧
    ∀ my' c', (my', c') ≠ (my, c) → db'.getCache I my' c' = db.getCache I my' c' := by
  have hw : WF I db := by rw [hdb]; exact wf_reach ops
  unfold Db.addCache at h
  split at h
  · cases h
  cases hp : db.pair I my c with
  | error e => simp only [hp] at h; cases h
  | ok r =>
    obtain ⟨u, v⟩ := r
    simp only [hp] at h
    injection h with h
    subst h
    constructor
    · refine ⟨(select (isCached u v) db.cache).map (fun r => r.2.messageID), by simp only [Db.getCache, hp], ?_⟩
      simp only [Db.getCache, pair_cache, hp, select, Sql.insert, List.filter_append, List.map_append]
      simp [isCached]
    · intro my' c' hne
      simp only [Db.getCache, pair_cache]
      cases hp' : db.pair I my' c' with
      | error e => rfl
      | ok r' =>
        obtain ⟨u', v'⟩ := r'
        have : isCached u' v' ⟨u, v, id⟩ = false := by
          simp only [isCached, Bool.and_eq_false_iff, beq_eq_false_iff_ne]
          by_cases hu : u = u'
          · refine .inr fun hv => hne ?_
            subst hu; subst hv
            obtain ⟨e1, e2⟩ := pair_cases hw hp' hp
            rw [e1, e2]
          · exact .inl hu
        simp only [select, Sql.insert, List.filter_append, List.filter_cons, this, Bool.false_eq_true, if_false, List.filter_nil, List.append_nil]

/-- **C50** An ID that is not in the cache of the account trims nothing. -/
theorem C50_unknown_id (my c id : Bytes) (l : List Bytes) (h : db.getCache I my c = .ok l) (hid : id ∉ l) :
    ∃ e, db.removeCache I my c id = .error e := by
  unfold Db.removeCache
  split
  · exact ⟨_, rfl⟩
  unfold Db.getCache at h
  cases hp : db.pair I my c with
  | error e => exact ⟨e, rfl⟩
  | ok r =>
    obtain ⟨u, v⟩ := r
    simp only [hp] at h
    injection h with h
    simp only
    have : first (fun e => isCached u v e && e.messageID == id) db.cache = none := first_none_iff.mpr fun r hr => by
      cases hc : isCached u v r.2 with
      | false => rfl
      | true =>
        have : r.2.messageID ≠ id := fun e => hid (by rw [← h, ← e]; exact List.mem_map.mpr ⟨r, List.mem_filter.mpr ⟨hr, hc⟩, rfl⟩)
        simp [this]
    rw [this]
    exact ⟨_, rfl⟩

/-- Two nyms, each with a cache. -/
def cacheHistory : List Op :=
  [.addNym [1] [1] [], .addNym [2] [2] [], .addContact [1] [2] [2] [] 0, .addCache [1] [] [5], .addCache [1] [2] [5], .addCache [1] [] [6],
    .addCache [2] [] [6], .addCache [1] [] [7], .removeCache [1] [] [6]]

example : (Db.new.run idI cacheHistory).getCache idI [1] [] = .ok [[6], [7]] ∧ (Db.new.run idI cacheHistory).getCache idI [1] [2] = .ok [[5]] ∧
    (Db.new.run idI cacheHistory).getCache idI [2] [] = .ok [[6]] := ⟨rfl, rfl, rfl⟩

/-! ## C51: contacts -/

theorem getContact_mem (hw : WF I db) {my id u f : Bytes} {ty : Int} (h : db.getContact I my id = .ok (u, f, ty)) (hu : u ≠ []) :
    ∃ n c k, db.nymUID my = some n ∧ (c, k) ∈ db.contacts ∧ k.myID = n ∧ k.mapped = id ∧ k.unmapped = u ∧ k.fullName = f ∧ k.blocked = ty := by
  unfold Db.getContact at h
  split at h
  · cases h
  split at h
  · cases h
  split at h
  · cases h
  rename_i n hn
  split at h
  · injection h with h
    exact absurd (congrArg Prod.fst h).symm hu
  · rename_i r hf
    split at h
    · injection h with h
      obtain ⟨h1, h2⟩ := first_mem hf
      simp only [isContact, Bool.and_eq_true, beq_iff_eq] at h2
      simp only [Prod.mk.injEq] at h
      exact ⟨n, r.1, r.2, hn, h1, h2.1, h2.2, h.1, h.2.1, h.2.2⟩
    · cases h

theorem first_contact (hw : WF I db) {c : Nat} {k : Contact} (h : (c, k) ∈ db.contacts) :
    first (isContact k.myID k.mapped) db.contacts = some (c, k) := by
  cases hf : first (isContact k.myID k.mapped) db.contacts with
  | none =>
    have := first_none_iff.mp hf (c, k) h
    simp [isContact] at this
  | some r =>
    obtain ⟨h1, h2⟩ := first_mem hf
    simp only [isContact, Bool.and_eq_true, beq_iff_eq] at h2
    rw [hw.contactUnique r h1 (c, k) h h2.1 h2.2]

/-- The identifiers that can be mapped look like `localpart@domain`, and the local part has no `<`
(uid/identity/identity.go:61-73, 93-142). -/
def Plain (I : Ids) : Prop := ∀ u m, I.map u = some m → ∃ lp dom, u = lp ++ 64 :: dom ∧ (64 : UInt8) ∉ dom ∧ (60 : UInt8) ∉ lp ∧ (64 : UInt8) ∉ lp

theorem last_split {x : UInt8} {a b c d : Bytes} (h : a ++ x :: b = c ++ x :: d) (hb : x ∉ b) (hd : x ∉ d) : a = c ∧ b = d := by
  induction a generalizing c with
  | nil =>
    cases c with
    | nil => simp only [List.nil_append, List.cons.injEq] at h; exact ⟨rfl, h.2⟩
    | cons y c =>
      simp only [List.nil_append, List.cons_append, List.cons.injEq] at h
      exact absurd (by rw [h.2]; simp) hb
  | cons y a ih =>
    cases c with
    | nil =>
      simp only [List.nil_append, List.cons_append, List.cons.injEq] at h
      exact absurd (by rw [← h.2]; simp) hd
    | cons z c =>
      simp only [List.cons_append, List.cons.injEq] at h
      obtain ⟨h1, h2⟩ := ih h.2
      exact ⟨by rw [h.1, h1], h2⟩

/-- What a listing shows determines the identity and the name of the contact. -/
theorem display_injective (hI : Plain I) {u u' f f' m m' : Bytes} (hu : I.map u = some m) (hu' : I.map u' = some m')
    (h : display u f = display u' f') : u = u' ∧ f = f' := by
  obtain ⟨lp, dom, rfl, h1, h2, h3⟩ := hI u m hu
  obtain ⟨lp', dom', rfl, h1', h2', h3'⟩ := hI u' m' hu'
  have key : ∀ (lp dom : Bytes) (f : Bytes), display (lp ++ 64 :: dom) f =
      ((if f = [] then [] else f ++ [32, 60]) ++ lp) ++ 64 :: (dom ++ if f = [] then [] else [62]) := by
    intro lp dom f
    unfold display
    split <;> simp
  rw [key, key] at h
  have n1 : ∀ {d : Bytes} (f : Bytes), (64 : UInt8) ∉ d → (64 : UInt8) ∉ d ++ (if f = [] then [] else [62]) := by
    intro d f hd hm
    rcases List.mem_append.mp hm with hm | hm
    · exact hd hm
    · split at hm
      · cases hm
      · simp at hm
  obtain ⟨e1, e2⟩ := last_split h (n1 f h1) (n1 f' h1')
  by_cases hf : f = [] <;> by_cases hf' : f' = []
  · subst hf; subst hf'
    simp at e1 e2
    exact ⟨by rw [e1, e2], rfl⟩
  · exfalso
    rw [if_pos hf, if_neg hf', List.nil_append] at e1
    exact h2 (by rw [e1]; simp)
  · exfalso
    rw [if_neg hf, if_pos hf', List.nil_append] at e1
    exact h2' (by rw [← e1]; simp)
  · rw [if_neg hf, if_neg hf'] at e1 e2
    have e1 : (f ++ [32]) ++ 60 :: lp = (f' ++ [32]) ++ 60 :: lp' := by simpa using e1
    obtain ⟨e3, e4⟩ := last_split e1 h2 h2'
    refine ⟨?_, List.append_cancel_right e3⟩
    rw [e4, List.append_cancel_right e2]

/-- **C51** A listing shows exactly the contacts of the nym that have the listed type: white listed
contacts if `blocked` is false, black listed ones otherwise. -/
theorem C51_listing (ops : List Op) (hdb : db = Db.new.run I ops) (my : Bytes) (blocked : Bool) (l : List Bytes)
    (h : db.getContacts I my blocked = .ok l) (x : Bytes) :
    x ∈ l ↔ ∃ id u f, db.getContact I my id = .ok (u, f, if blocked then 2 else 0) ∧ u ≠ [] ∧ x = display u f := by
  have hw : WF I db := by rw [hdb]; exact wf_reach ops
  unfold Db.getContacts at h
  split at h
  · cases h
  rename_i hmy
  split at h
  · cases h
  rename_i n hn
  injection h with h
  subst h
  rw [List.mem_map]
  constructor
  · rintro ⟨r, hr, rfl⟩
    obtain ⟨h1, h2⟩ := List.mem_filter.mp hr
    simp only [Bool.and_eq_true, beq_iff_eq] at h2
    have hfit := hw.contactFits r h1
    refine ⟨r.2.mapped, r.2.unmapped, r.2.fullName, ?_, hfit.2.2, rfl⟩
    unfold Db.getContact
    rw [if_neg hmy, if_neg (by simp [hfit.1]), hn]
    have := first_contact hw (c := r.1) (k := r.2) h1
    rw [h2.1] at this
    simp only [this, h2.2]
    cases blocked <;> simp
  · rintro ⟨id, u, f, hg, hu, rfl⟩
    obtain ⟨n', c, k, hn', hk, e1, e2, e3, e4, e5⟩ := getContact_mem hw hg hu
    rw [hn] at hn'
    injection hn' with hn'
    refine ⟨(c, k), List.mem_filter.mpr ⟨hk, ?_⟩, by rw [e3, e4]⟩
    simp [e1, ← hn', e5]

/-- **C51** A contact is stored once: two entries of a listing are never the same. -/
theorem C51_stored_once (hI : Plain I) (ops : List Op) (hdb : db = Db.new.run I ops) (my : Bytes) (blocked : Bool) (l : List Bytes)
    (h : db.getContacts I my blocked = .ok l) : l.Nodup := by
  have hw : WF I db := by rw [hdb]; exact wf_reach ops
  unfold Db.getContacts at h
  split at h
  · cases h
  split at h
  · cases h
  rename_i n hn
  injection h with h
  subst h
  have hp : (select (fun c : Contact => c.myID == n && c.blocked == (if blocked then 2 else 0)) db.contacts).Pairwise (fun r s => r.1 < s.1) :=
    hw.contacts.1.filter _
  unfold List.Nodup
  rw [List.pairwise_map]
  refine List.Pairwise.imp_of_mem ?_ hp
  intro r s hr hs hlt e
  obtain ⟨hr1, hr2⟩ := List.mem_filter.mp hr
  obtain ⟨hs1, hs2⟩ := List.mem_filter.mp hs
  simp only [Bool.and_eq_true, beq_iff_eq] at hr2 hs2
  have f1 := hw.contactFits r hr1
  have f2 := hw.contactFits s hs1
  have := display_injective hI f1.2.1 f2.2.1 e
  have hm : r.2.mapped = s.2.mapped := by
    have h1 := f1.2.1
    rw [this.1, f2.2.1] at h1
    exact (Option.some.inj h1).symm
  have := hw.contactUnique r hr1 s hs1 (by rw [hr2.1, hs2.1]) hm
  rw [this] at hlt
  exact Nat.lt_irrefl _ hlt

/-- **C51** The white list and the black list of a nym have no contact in common. -/
theorem C51_lists_disjoint (hI : Plain I) (ops : List Op) (hdb : db = Db.new.run I ops) (my : Bytes) (l b : List Bytes)
    (hl : db.getContacts I my false = .ok l) (hb : db.getContacts I my true = .ok b) (x : Bytes) : ¬ (x ∈ l ∧ x ∈ b) := by
  rintro ⟨h1, h2⟩
  have hw : WF I db := by rw [hdb]; exact wf_reach ops
  obtain ⟨id, u, f, hg, hu, e⟩ := (C51_listing ops hdb my false l hl x).mp h1
  obtain ⟨id', u', f', hg', hu', e'⟩ := (C51_listing ops hdb my true b hb x).mp h2
  obtain ⟨n, c, k, hn, hk, a1, a2, a3, a4, a5⟩ := getContact_mem hw hg hu
  obtain ⟨n', c', k', hn', hk', a1', a2', a3', a4', a5'⟩ := getContact_mem hw hg' hu'
  have f1 := hw.contactFits _ hk
  have f2 := hw.contactFits _ hk'
  have hd := display_injective hI (by rw [← a3]; exact f1.2.1) (by rw [← a3']; exact f2.2.1) (e.symm.trans e')
  have hm : k.mapped = k'.mapped := by
    have h1 := f1.2.1
    have h2 := f2.2.1
    simp only at h1 h2
    rw [a3, hd.1, ← a3', h2] at h1
    exact (Option.some.inj h1).symm
  rw [hn] at hn'
  have hnn := Option.some.inj hn'
  have := hw.contactUnique _ hk _ hk' (by simp only; rw [a1, a1', hnn]) hm
  injection this with _ this
  rw [this, a5'] at a5
  simp at a5

/-- **C51** After removing a contact it is in neither listing, and its type is the one the control
engine refuses to send to. -/
theorem C51_removed (hI : Plain I) (ops : List Op) (hdb : db = Db.new.run I ops) (my id u f : Bytes) (ty : Int)
    (hg : db.getContact I my id = .ok (u, f, ty)) (hu : u ≠ []) (h : db.removeContact I my id = .ok db') :
    db'.getContact I my id = .ok (u, f, 1) ∧
    ∀ blocked l, db'.getContacts I my blocked = .ok l → display u f ∉ l := by
  have hw : WF I db := by rw [hdb]; exact wf_reach ops
  have hdb' : db' = Db.new.run I (ops ++ [.removeContact my id]) := by
    unfold Db.run
    rw [List.foldl_append]
    simp only [List.foldl_cons, List.foldl_nil]
    rw [show ops.foldl (Db.step I) Db.new = db from hdb.symm]
    simp only [Db.step, Db.apply, h]
  have hw' : WF I db' := by rw [hdb']; exact wf_reach _
  obtain ⟨n, c, k, hn, hk, a1, a2, a3, a4, a5⟩ := getContact_mem hw hg hu
  have hmy : ¬ I.isMapped my = false := by
    intro hm; unfold Db.removeContact at h; rw [if_pos hm] at h; cases h
  have hid : ¬ I.isMapped id = false := by
    intro hm; unfold Db.removeContact at h; rw [if_neg hmy, if_pos hm] at h; cases h
  have hdb1 : db' = { db with contacts := update (isContact n id) (fun c => { c with blocked := 1 }) db.contacts } := by
    unfold Db.removeContact at h
    rw [if_neg hmy, if_neg hid, hn] at h
    injection h with h
    exact h.symm
  have hk' : (c, { k with blocked := 1 }) ∈ db'.contacts := by
    rw [hdb1]
    exact (mem_update (p := isContact n id) (f := fun c => { c with blocked := 1 })).mpr (.inr ⟨k, hk, by simp [isContact, a1, a2], rfl⟩)
  have hf := first_contact hw' hk'
  simp only [a1, a2] at hf
  have hn' : db'.nymUID my = some n := by rw [hdb1]; exact hn
  have g : db'.getContact I my id = .ok (u, f, 1) := by
    unfold Db.getContact
    rw [if_neg hmy, if_neg hid, hn']
    simp only [hf]
    simp [a3, a4]
  refine ⟨g, ?_⟩
  intro blocked l hl hm
  obtain ⟨id', u', f', hg', hu', e⟩ := (C51_listing _ hdb' my blocked l hl _).mp hm
  obtain ⟨m, c', k', hm', hk2, b1, b2, b3, b4, b5⟩ := getContact_mem hw' hg' hu'
  have f1 := hw'.contactFits _ hk'
  have f2 := hw'.contactFits _ hk2
  have hd := display_injective hI (show I.map u = some k.mapped by rw [← a3]; exact f1.2.1) (by rw [← b3]; exact f2.2.1) e
  have hmm : k.mapped = k'.mapped := by
    have h1 := f1.2.1
    have h2 := f2.2.1
    simp only at h1 h2
    rw [a3, hd.1, ← b3, h2] at h1
    exact (Option.some.inj h1).symm
  rw [hn'] at hm'
  have hnn := Option.some.inj hm'
  have := hw'.contactUnique _ hk' _ hk2 (by simp only; rw [a1, b1, hnn]) hmm
  injection this with _ this
  rw [← this] at b5
  simp only at b5
  cases blocked <;> simp at b5

/-- **C51** Adding a contact stores exactly what was given and changes no other contact of the nym
and no contact of another nym. -/
theorem C51_add_contact (ops : List Op) (hdb : db = Db.new.run I ops) (my id u f : Bytes) (ty : Int) (ht : ty = 0 ∨ ty = 1 ∨ ty = 2)
    (h : db.addContact I my id u f ty = .ok db') :
    db'.getContact I my id = .ok (u, f, ty) ∧ ∀ my' id', (my', id') ≠ (my, id) → db'.getContact I my' id' = db.getContact I my' id' := by
  have hw : WF I db := by rw [hdb]; exact wf_reach ops
  have hw' : WF I db' := wf_addContact hw h
  unfold Db.addContact at h
  split at h
  · cases h
  rename_i h1
  split at h
  · cases h
  rename_i h2
  split at h
  · cases h
  split at h
  · cases h
  split at h
  · cases h
  rename_i n hn
  have other : ∀ my' id' n', (my', id') ≠ (my, id) → db.nymUID my' = some n' → ∀ k : Contact, k.myID = n → k.mapped = id → isContact n' id' k = false := by
    intro my' id' n' hne hn' k e1 e2
    simp only [isContact, Bool.and_eq_false_iff, beq_eq_false_iff_ne]
    by_cases e : k.myID = n'
    · refine .inr fun e3 => hne ?_
      obtain ⟨x, hx, ex⟩ := nymUID_some hn
      obtain ⟨y, hy, ey⟩ := nymUID_some hn'
      have := sorted_unique hw.nyms hx hy (by simp only; rw [← e1, e])
      injection this with _ this
      rw [← ex, ← ey, this, ← e2, ← e3]
    · exact .inl e
  split at h
  · rename_i hs
    injection h with h
    subst h
    constructor
    · have hf := first_contact hw' (c := nextId db.contacts) (k := ⟨n, id, u, f, ty⟩) (mem_insert.mpr (.inr rfl))
      unfold Db.getContact
      rw [if_neg h1, if_neg h2, show ({ db with contacts := insert db.contacts ⟨n, id, u, f, ty⟩ } : Db).nymUID my = some n from hn]
      simp only at hf ⊢
      rw [hf]
      simp [ht]
    · intro my' id' hne
      unfold Db.getContact
      rw [show ({ db with contacts := insert db.contacts ⟨n, id, u, f, ty⟩ } : Db).nymUID my' = db.nymUID my' from rfl]
      cases hn' : db.nymUID my' with
      | none => rfl
      | some n' =>
        simp only
        rw [first_insert, other my' id' n' hne hn' ⟨n, id, u, f, ty⟩ rfl rfl]
        simp
  · rename_i hs
    injection h with h
    subst h
    constructor
    · cases hf0 : first (isContact n id) db.contacts with
      | none => exact absurd (select_nil_iff.mpr (first_none_iff.mp hf0)) hs
      | some r =>
        unfold Db.getContact
        rw [if_neg h1, if_neg h2]
        rw [show ({ db with contacts := update (isContact n id) (fun c => { c with unmapped := u, fullName := f, blocked := ty }) db.contacts } : Db).nymUID my
          = some n from hn]
        simp only
        rw [first_update _ _ (fun c : Contact => { c with unmapped := u, fullName := f, blocked := ty }) _ (fun a _ => rfl), hf0]
        simp only [Option.map_some, (first_mem hf0).2, if_true]
        simp [ht]
    · intro my' id' hne
      unfold Db.getContact
      rw [show ({ db with contacts := update (isContact n id) (fun c => { c with unmapped := u, fullName := f, blocked := ty }) db.contacts } : Db).nymUID my'
        = db.nymUID my' from rfl]
      cases hn' : db.nymUID my' with
      | none => rfl
      | some n' =>
        simp only
        rw [first_update _ _ (fun c : Contact => { c with unmapped := u, fullName := f, blocked := ty }) _ (fun a _ => rfl)]
        cases hf0 : first (isContact n' id') db.contacts with
        | none => rfl
        | some r =>
          have : isContact n id r.2 = false := by
            cases hc : isContact n id r.2 with
            | false => rfl
            | true =>
              simp only [isContact, Bool.and_eq_true, beq_iff_eq] at hc
              have := other my' id' n' hne hn' r.2 hc.1 hc.2
              rw [(first_mem hf0).2] at this
              cases this
          simp [this]

/-- The identities `1@2`, `3@2` and `5@2`, which are their own mapping. -/
def plainI : Ids := ⟨fun u => if u ∈ [[1, 64, 2], [3, 64, 2], [5, 64, 2]] then some u else none⟩

theorem plainI_plain : Plain plainI := by
  intro u m h
  simp only [plainI] at h
  split at h
  · rename_i hm
    simp only [List.mem_cons, List.not_mem_nil, or_false] at hm
    rcases hm with rfl | rfl | rfl
    · exact ⟨[1], [2], rfl, by decide, by decide, by decide⟩
    · exact ⟨[3], [2], rfl, by decide, by decide, by decide⟩
    · exact ⟨[5], [2], rfl, by decide, by decide, by decide⟩
  · cases h

def contactHistory : List Op :=
  [.addNym [1, 64, 2] [1, 64, 2] [], .addContact [1, 64, 2] [3, 64, 2] [3, 64, 2] [9] 0, .addContact [1, 64, 2] [5, 64, 2] [5, 64, 2] [] 2]

example : (Db.new.run plainI contactHistory).getContacts plainI [1, 64, 2] false = .ok [[9, 32, 60, 3, 64, 2, 62]] ∧
    (Db.new.run plainI contactHistory).getContacts plainI [1, 64, 2] true = .ok [[5, 64, 2]] := ⟨rfl, rfl⟩

example : ∃ db', (Db.new.run plainI contactHistory).removeContact plainI [1, 64, 2] [3, 64, 2] = .ok db' ∧
    db'.getContacts plainI [1, 64, 2] false = .ok [] := ⟨_, rfl, rfl⟩

/-- Removing a black listed contact takes it off the black list: messages of an unknown sender are
accepted again. The English claim only asks that it cannot be sent to. -/
theorem C51_removed_unblocks : ∃ db', (Db.new.run plainI contactHistory).removeContact plainI [1, 64, 2] [5, 64, 2] = .ok db' ∧
    (Db.new.run plainI contactHistory).getContacts plainI [1, 64, 2] true = .ok [[5, 64, 2]] ∧
    db'.getContacts plainI [1, 64, 2] true = .ok [] := ⟨_, rfl, rfl, rfl⟩

end Verif.Msgdb

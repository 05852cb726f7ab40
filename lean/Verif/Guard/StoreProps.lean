/-
Properties of the wallet database: C36, C39, C43, C86.
-/
import Verif.Guard.Store

namespace Verif.Guard.Store
open Verif.Util
open Verif.Mix (unhex)

/-! ### reachable tables are well-formed -/

theorem Wf.of_hashes {db db' : Db} (h : Wf db) (e : db'.tokens.map (·.g.hash) = db.tokens.map (·.g.hash)) : Wf db' := by
  refine ⟨e ▸ h.unique, ?_⟩
  intro r hr
  have h1 : r.g.hash ∈ db'.tokens.map (·.g.hash) := List.mem_map_of_mem hr
  rw [e] at h1
  obtain ⟨r', h2, h3⟩ := List.mem_map.mp h1
  rw [← h3]
  exact h.isHex r' h2

theorem Wf.of_sublist {db db' : Db} (h : Wf db) (e : db'.tokens.Sublist db.tokens) : Wf db' :=
  ⟨h.unique.sublist (e.map _), fun r hr => h.isHex r (e.subset hr)⟩

theorem map_hash (l : List Row) (c : Row → Bool) (f : Row → Row) (hf : ∀ r, c r = true → (f r).g.hash = r.g.hash) :
    (l.map fun r => if c r then f r else r).map (·.g.hash) = l.map (·.g.hash) := by
  rw [List.map_map]
  apply List.map_congr_left
  intro r _
  simp only [Function.comp]
  split
  · exact hf r ‹_›
  · rfl

theorem setRow_wf {db : Db} (h : Wf db) (g : Global) (hg : ∃ b, g.hash = hex b) : Wf (db.setRow g) := by
  unfold Db.setRow
  split
  · refine h.of_hashes (map_hash _ _ _ ?_)
    intro r hr
    simp only [beq_iff_eq] at hr
    exact hr.symm
  · rename_i hn
    constructor
    · simp only [List.map_append, List.map_cons, List.map_nil]
      rw [List.nodup_append]
      refine ⟨h.unique, by simp, ?_⟩
      intro a ha b hb
      simp only [List.mem_singleton] at hb
      obtain ⟨r, hr, rfl⟩ := List.mem_map.mp ha
      intro e
      apply hn
      exact List.any_eq_true.mpr ⟨r, hr, by simp [e, hb]⟩
    · intro r hr
      simp only [List.mem_append, List.mem_singleton] at hr
      rcases hr with hr | hr
      · exact h.isHex r hr
      · rw [hr]; exact hg

theorem setState_tokens (db : Db) (h s : Bytes) : (db.setState h s).tokens = db.tokens := by
  unfold Db.setState; split <;> rfl

theorem encode_hash {e : Entry} {g : Global} {s : Bytes} (h : encodeToken e = .ok (g, s)) : g.hash = hex e.hash := by
  unfold encodeToken at h
  split at h
  · cases h
  · cases h; rfl

theorem setToken_tokens {db d : Db} {e : Entry} (h : db.setToken e = .ok d) :
    ∃ g s, encodeToken e = .ok (g, s) ∧ d.tokens = (db.setRow g).tokens := by
  unfold Db.setToken at h
  split at h
  · cases h
  · cases h
  · rename_i g s he
    refine ⟨g, s, he, ?_⟩
    cases h
    split
    · exact setState_tokens _ _ _
    · rfl

theorem setToken_wf {db d : Db} {e : Entry} (h : Wf db) (he : db.setToken e = .ok d) : Wf d := by
  obtain ⟨g, s, h1, h2⟩ := setToken_tokens he
  have := setRow_wf h g ⟨_, encode_hash h1⟩
  exact ⟨h2 ▸ this.unique, h2 ▸ this.isHex⟩

theorem lock_hashes (db : Db) (h : Bytes) (id now : Int) : (db.lock h id now).1.tokens.map (·.g.hash) = db.tokens.map (·.g.hash) := by
  unfold Db.lock
  split
  · exact map_hash _ (lockMatches h id) (fun r => { r with lockID := id, lockTime := now }) (fun _ _ => rfl)
  · rfl

theorem unlock_hashes (db : Db) (h : Bytes) : (db.unlock h).tokens.map (·.g.hash) = db.tokens.map (·.g.hash) :=
  map_hash _ (fun r => r.g.hash == hex h) (fun r => { r with lockID := 0, lockTime := 0 }) (fun _ _ => rfl)

theorem cleanLocks_hashes (db : Db) (f : Bool) (now : Int) : (db.cleanLocks f now).tokens.map (·.g.hash) = db.tokens.map (·.g.hash) := by
  unfold Db.cleanLocks
  simp only
  generalize (if f = true then (4294967295 : Int) else now + maxLockAge) = limit
  rw [List.map_map]
  apply List.map_congr_left
  intro r _
  simp only [Function.comp]
  split <;> rfl

theorem getAndLock1_hashes (db : Db) (u : Bytes) (o : Option Bytes) (id now : Int) :
    (db.getAndLock1 u o id now).1.tokens.map (·.g.hash) = db.tokens.map (·.g.hash) := by
  unfold Db.getAndLock1
  split
  · rfl
  · split
    · rfl
    · simp only
      split <;> exact lock_hashes _ _ _ _

theorem getAndLock_hashes (u : Bytes) (o : Option Bytes) (now : Int) (n : Nat) (ids : Nat → Int) (db : Db) :
    (db.getAndLock u o now n ids).1.tokens.map (·.g.hash) = db.tokens.map (·.g.hash) := by
  induction n generalizing db with
  | zero => rfl
  | succ n ih =>
    have h1 := getAndLock1_hashes db u o (ids n) now
    unfold Db.getAndLock
    split
    · rename_i db' h; rw [h] at h1; rw [ih, h1]
    · exact h1

theorem delToken_sub (db : Db) (h : Bytes) : (db.delToken h).tokens.Sublist db.tokens := List.filter_sublist

theorem foldl_del (l : List Bytes) (db : Db) :
    (l.foldl Db.delToken db).tokens = db.tokens.filter (fun r => !(l.map hex).contains r.g.hash) ∧
    (l.foldl Db.delToken db).states = db.states.filter (fun r => !(l.map hex).contains r.1) := by
  induction l generalizing db with
  | nil => constructor <;> exact (List.filter_eq_self.mpr (by simp)).symm
  | cons x l ih =>
    rw [List.foldl_cons]
    obtain ⟨h1, h2⟩ := ih (db.delToken x)
    rw [h1, h2]
    unfold Db.delToken
    simp only [List.filter_filter]
    constructor <;>
    · apply List.filter_congr
      intro r _
      rw [List.map_cons, List.contains_cons, Bool.not_or, Bool.and_comm]

theorem expire_sub (db : Db) (now : Int) : (db.expire now).1.tokens.Sublist db.tokens := by
  unfold Db.expire
  simp only
  rw [(foldl_del _ _).1]
  exact List.filter_sublist

theorem step_wf {db : Db} (h : Wf db) (op : Op) : Wf (step db op) := by
  cases op with
  | set e =>
    simp only [step]
    split
    · exact setToken_wf h ‹_›
    · exact h
  | lock => exact h.of_hashes (lock_hashes _ _ _ _)
  | unlock => exact h.of_hashes (unlock_hashes _ _)
  | del => exact h.of_sublist (delToken_sub _ _)
  | clean => exact h.of_hashes (cleanLocks_hashes _ _ _)
  | reopen => exact h.of_hashes (cleanLocks_hashes _ _ _)
  | take => exact h.of_hashes (getAndLock_hashes _ _ _ _ _ _)
  | expire => exact h.of_sublist (expire_sub _ _)

/-- Every database made by calls of the store is well-formed. -/
theorem run_wf {db : Db} (h : Wf db) (ops : List Op) : Wf (run db ops) := by
  induction ops generalizing db with
  | nil => exact h
  | cons op ops ih => exact ih (step_wf h op)

theorem empty_wf : Wf ⟨[], []⟩ := ⟨by simp, by simp⟩

/-! ### C39: what is stored is read -/

theorem find_map_update (l : List Row) (g : Global) (h : l.any (·.g.hash == g.hash) = true) :
    ∃ r, (l.map fun r => if r.g.hash == g.hash then { r with g := g } else r).find? (·.g.hash == g.hash) = some r ∧ r.g = g := by
  induction l with
  | nil => cases h
  | cons a l ih =>
    rw [List.map_cons, List.find?_cons]
    by_cases ha : (a.g.hash == g.hash) = true
    · simp only [ha, if_true, BEq.rfl]; exact ⟨_, rfl, rfl⟩
    · have ha := Bool.eq_false_iff.mpr ha
      simp only [List.any_cons, ha, Bool.false_or] at h
      rw [ha, if_neg (by decide)]
      simp only [ha]
      exact ih h

theorem row_setRow (db : Db) (g : Global) : ∃ r, (db.setRow g).row g.hash = some r ∧ r.g = g := by
  unfold Db.setRow Db.row
  split
  · exact find_map_update _ _ ‹_›
  · rename_i h
    refine ⟨⟨0, 0, g⟩, ?_, rfl⟩
    simp only
    rw [List.find?_append, List.find?_eq_none.mpr]
    · simp
    · intro r hr hh
      exact h (List.any_eq_true.mpr ⟨r, hr, hh⟩)

theorem find_upd (l : List (Bytes × Bytes)) (k s : Bytes) (h : l.any (·.1 == k) = true) :
    ((l.map fun r => if r.1 == k then (k, s) else r).find? (·.1 == k)).map (·.2) = some s := by
  induction l with
  | nil => cases h
  | cons a l ih =>
    rw [List.map_cons, List.find?_cons]
    by_cases ha : (a.1 == k) = true
    · simp only [ha, if_true, BEq.rfl]; rfl
    · have ha := Bool.eq_false_iff.mpr ha
      simp only [List.any_cons, ha, Bool.false_or] at h
      rw [ha, if_neg (by decide)]
      simp only [ha]
      exact ih h

theorem state_setState (db : Db) (k s : Bytes) : ((db.setState k s).states.find? (·.1 == k)).map (·.2) = some s := by
  unfold Db.setState
  split
  · exact find_upd _ _ _ ‹_›
  · rename_i h
    simp only
    rw [List.find?_append, List.find?_eq_none.mpr]
    · simp
    · intro r hr hh
      exact h (List.any_eq_true.mpr ⟨r, hr, hh⟩)

theorem encode_shape {e : Entry} {g : Global} {s : Bytes} (h : encodeToken e = .ok (g, s)) :
    s = (if g.hasParams || g.hasState then Base64.encode (stateBytes e) else []) ∧ g.hash = hex e.hash := by
  unfold encodeToken at h
  split at h
  · cases h
  · cases h
    refine ⟨?_, rfl⟩
    simp only
    rw [Bool.or_comm]

theorem encode_ne_nil {b : Bytes} (h : b ≠ []) : Base64.encode b ≠ [] := by
  intro e
  apply h
  apply Base64.encode_injective
  rw [e]; rfl

theorem stateBytes_ne (e : Entry) : stateBytes e ≠ [] := by
  unfold stateBytes Asn1.tlv
  simp

/-- C39, partial: in every database, an entry that is written is read back exactly, whether
it replaced an older entry or not. -/
theorem C39_stored_partial (db : Db) (e : Entry) (he : e.Wf) :
    ∃ d, db.setToken e = .ok d ∧ d.getToken e.hash (-1) = .ok e := by
  obtain ⟨g, s, h1, h2⟩ := C39_round_trip_partial e he
  obtain ⟨hs, hh⟩ := encode_shape h1
  unfold Db.setToken
  rw [h1]
  refine ⟨_, rfl, ?_⟩
  have hdec : ∀ d : Db, (∃ r, d.row g.hash = some r ∧ r.g = g) → d.state g g.hash = some s → d.getToken e.hash (-1) = .ok e := by
    intro d hr hst
    obtain ⟨r, hr, hrg⟩ := hr
    unfold Db.getToken
    rw [← hh, hr]
    simp only
    rw [if_neg (by omega), hrg, hst]
    simp only [h2]
  apply hdec
  · split
    · obtain ⟨r, hr⟩ := row_setRow db g
      refine ⟨r, ?_, hr.2⟩
      unfold Db.row at hr ⊢
      rw [setState_tokens]
      exact hr.1
    · exact row_setRow db g
  · unfold Db.state
    by_cases hc : (g.hasParams || g.hasState) = true
    · rw [if_pos hc]
      rw [if_pos hc] at hs
      rw [if_pos]
      · exact state_setState _ _ _
      · rw [hs]; exact List.length_pos_iff.mpr (encode_ne_nil (stateBytes_ne e))
    · rw [if_neg hc]
      rw [if_neg hc] at hs
      rw [hs]

example : ∃ d, (Db.mk [] []).setToken exEntry = .ok d ∧ d.getToken [1, 2] (-1) = .ok exEntry := by
  apply C39_stored_partial ⟨[], []⟩ exEntry
  exact ⟨⟨_, rfl, by simp⟩, by intro k hk; cases hk; simp, by decide, by decide, by decide, by intro k hk; cases hk; simp, nofun,
    fun _ => .inl rfl, by decide⟩

theorem find_setRow_other (l : List Row) (g : Global) (k : Bytes) (h : g.hash ≠ k) :
    (l.map fun r => if r.g.hash == g.hash then { r with g := g } else r).find? (·.g.hash == k) = l.find? (·.g.hash == k) := by
  induction l with
  | nil => rfl
  | cons a l ih =>
    rw [List.map_cons, List.find?_cons, List.find?_cons, ih]
    by_cases ha : (a.g.hash == g.hash) = true
    · have : (g.hash == k) = false := by simpa using h
      have h2 : (a.g.hash == k) = false := by rw [eq_of_beq ha]; exact this
      simp only [ha, if_true, this, h2]
    · simp only [ha]; rfl

theorem row_setRow_other (db : Db) (g : Global) (k : Bytes) (h : g.hash ≠ k) : (db.setRow g).row k = db.row k := by
  unfold Db.setRow Db.row
  split
  · exact find_setRow_other _ _ _ h
  · simp only
    rw [List.find?_append]
    have : (g.hash == k) = false := by simpa using h
    simp [this]

theorem find_upd_other (l : List (Bytes × Bytes)) (k s k' : Bytes) (h : k ≠ k') :
    (l.map fun r => if r.1 == k then (k, s) else r).find? (·.1 == k') = l.find? (·.1 == k') := by
  induction l with
  | nil => rfl
  | cons a l ih =>
    rw [List.map_cons, List.find?_cons, List.find?_cons, ih]
    by_cases ha : (a.1 == k) = true
    · have : (k == k') = false := by simpa using h
      have h2 : (a.1 == k') = false := by rw [eq_of_beq ha]; exact this
      simp only [ha, if_true, this, h2]
    · simp only [ha]; rfl

theorem states_setState_other (db : Db) (k s k' : Bytes) (h : k ≠ k') :
    (db.setState k s).states.find? (·.1 == k') = db.states.find? (·.1 == k') := by
  unfold Db.setState
  split
  · exact find_upd_other _ _ _ _ h
  · simp only
    rw [List.find?_append]
    have : (k == k') = false := by simpa using h
    simp [this]

/-- Writing one token does not change what is read for another. -/
theorem C39_others_unchanged (db d : Db) (e : Entry) (h : db.setToken e = .ok d) (hash : Bytes) (hne : hash ≠ e.hash) (lockID : Int) :
    d.getToken hash lockID = db.getToken hash lockID := by
  unfold Db.setToken at h
  split at h
  · cases h
  · cases h
  · rename_i g s he
    have hh := encode_hash he
    have hk : g.hash ≠ hex hash := by rw [hh]; exact fun e => hne (hex_inj e.symm)
    cases h
    have key : ∀ d : Db, d.row (hex hash) = db.row (hex hash) → d.states.find? (·.1 == hex hash) = db.states.find? (·.1 == hex hash) →
        d.getToken hash lockID = db.getToken hash lockID := by
      intro d h1 h2
      unfold Db.getToken Db.state
      rw [h1, h2]
    split
    · apply key
      · unfold Db.row
        rw [setState_tokens]
        exact row_setRow_other db g _ hk
      · rw [states_setState_other _ _ _ _ hk]
        unfold Db.setRow
        split <;> rfl
    · apply key
      · exact row_setRow_other db g _ hk
      · unfold Db.setRow
        split <;> rfl

/-- C39, crash: the row is written before the state. A crash between the two statements of
the first write of an entry with parameters leaves a row that cannot be read. -/
theorem C39_crash_unreadable (db : Db) (e : Entry) (g : Global) (s : Bytes) (h : encodeToken e = .ok (g, s)) (hp : e.params ≠ none)
    (hn : db.states.find? (·.1 == hex e.hash) = none) :
    (db.setRow g).getToken e.hash (-1) = .err .noRows := by
  have hh := encode_hash h
  have hgp : g.hasParams = true := by
    unfold encodeToken at h
    split at h
    · cases h
    · cases h; cases hpar : e.params with
      | none => exact absurd hpar hp
      | some _ => rfl
  obtain ⟨r, hr, hrg⟩ := row_setRow db g
  unfold Db.getToken
  rw [← hh, hr]
  simp only
  rw [if_neg (by omega), hrg]
  have : (db.setRow g).state g g.hash = none := by
    unfold Db.state
    rw [hgp, Bool.true_or, if_pos rfl]
    have : (db.setRow g).states = db.states := by unfold Db.setRow; split <;> rfl
    rw [this, hh, hn]
    rfl
  rw [this]

end Verif.Guard.Store

/-
Locks and expiry of wallet tokens: C36, C43, C86.
-/
import Verif.Guard.StoreProps

namespace Verif.Guard.Store
open Verif.Util
open Verif.Mix (unhex)

/-! ### C36 locks -/

/-- Somebody holds the token with this lock. -/
def Held (db : Db) (hash : Bytes) (id : Int) : Prop := ∀ r ∈ db.tokens, r.g.hash = hex hash → r.lockID = id

/-- A call that is not an unlock or deletion of the token by anyone, that does not clear its
lock, and that did not draw the same random ID. -/
def Op.leaves (hash : Bytes) (id : Int) (db : Db) : Op → Prop
  | .set _ => True
  | .lock _ i _ => i ≠ id
  | .unlock h => h ≠ hash
  | .del h => h ≠ hash
  | .clean f n => ∀ r ∈ db.tokens, r.g.hash = hex hash → ¬ (r.lockTime ≠ 0 ∧ r.lockTime < if f then 4294967295 else n + maxLockAge)
  | .reopen n => ∀ r ∈ db.tokens, r.g.hash = hex hash → ¬ (r.lockTime ≠ 0 ∧ r.lockTime < n + maxLockAge)
  | .take _ _ _ ids => ∀ k, ids k ≠ id
  | .expire n => ∀ r ∈ db.tokens, r.g.hash = hex hash → ¬ r.g.expire < n - expireEdge

/-- A list of such calls. -/
def Undisturbed (hash : Bytes) (id : Int) : Db → List Op → Prop
  | _, [] => True
  | db, op :: ops => op.leaves hash id db ∧ Undisturbed hash id (step db op) ops

/-- The token is in the database and held. -/
def HeldIn (db : Db) (hash : Bytes) (id : Int) : Prop := Held db hash id ∧ ∃ r ∈ db.tokens, r.g.hash = hex hash

theorem lock_held {db : Db} {hash : Bytes} {id : Int} (h : HeldIn db hash id) (hid : id ≠ 0) (h' : Bytes) (i now : Int) (hi : i ≠ id) :
    HeldIn (db.lock h' i now).1 hash id := by
  unfold Db.lock
  split
  · have key : ∀ r ∈ db.tokens, r.g.hash = hex hash → lockMatches h' i r = false := by
      intro r hr hh
      have := h.1 r hr hh
      unfold lockMatches
      rw [this]
      simp [hid, Ne.symm hi]
    constructor
    · intro r hr hh
      obtain ⟨r0, h0, h1⟩ := List.mem_map.mp hr
      by_cases hm : lockMatches h' i r0 = true
      · rw [if_pos hm] at h1
        have : r0.g.hash = hex hash := by rw [← h1] at hh; exact hh
        rw [key r0 h0 this] at hm
        cases hm
      · rw [if_neg hm] at h1
        rw [← h1] at hh ⊢
        exact h.1 r0 h0 hh
    · obtain ⟨r, hr, hh⟩ := h.2
      refine ⟨r, List.mem_map.mpr ⟨r, hr, ?_⟩, hh⟩
      rw [key r hr hh]
      rfl
  · exact h

theorem take1_held {db : Db} {hash : Bytes} {id : Int} (h : HeldIn db hash id) (hid : id ≠ 0) (u : Bytes) (o : Option Bytes) (i now : Int)
    (hi : i ≠ id) : HeldIn (db.getAndLock1 u o i now).1 hash id := by
  unfold Db.getAndLock1
  split
  · exact h
  · split
    · exact h
    · simp only
      split <;> exact lock_held h hid _ _ _ hi

theorem take_held {hash : Bytes} {id : Int} (hid : id ≠ 0) (u : Bytes) (o : Option Bytes) (now : Int) (ids : Nat → Int) (hi : ∀ k, ids k ≠ id)
    (n : Nat) : ∀ {db : Db}, HeldIn db hash id → HeldIn (db.getAndLock u o now n ids).1 hash id := by
  induction n with
  | zero => intro db h; exact h
  | succ n ih =>
    intro db h
    have h1 := take1_held h hid u o (ids n) now (hi n)
    unfold Db.getAndLock
    split
    · rename_i db' hh; rw [hh] at h1; exact ih h1
    · exact h1

theorem setRow_held {db : Db} {hash : Bytes} {id : Int} (h : HeldIn db hash id) (g : Global) : HeldIn (db.setRow g) hash id := by
  unfold Db.setRow
  split
  · constructor
    · intro r hr hh
      obtain ⟨r0, h0, h1⟩ := List.mem_map.mp hr
      by_cases hm : (r0.g.hash == g.hash) = true
      · rw [if_pos hm] at h1
        have e := eq_of_beq hm
        have : r0.g.hash = hex hash := by rw [e, ← hh, ← h1]
        rw [← h1]
        exact h.1 r0 h0 this
      · rw [if_neg hm] at h1
        rw [← h1] at hh ⊢
        exact h.1 r0 h0 hh
    · obtain ⟨r, hr, hh⟩ := h.2
      refine ⟨_, List.mem_map_of_mem hr, ?_⟩
      split
      · rename_i hm; exact (eq_of_beq hm).symm.trans hh
      · exact hh
  · rename_i hn
    constructor
    · intro r hr hh
      simp only [List.mem_append, List.mem_singleton] at hr
      rcases hr with hr | hr
      · exact h.1 r hr hh
      · exfalso
        obtain ⟨r0, hr0, hh0⟩ := h.2
        apply hn
        refine List.any_eq_true.mpr ⟨r0, hr0, ?_⟩
        have : g.hash = hex hash := by rw [hr] at hh; exact hh
        rw [hh0, this]
        exact BEq.rfl
    · obtain ⟨r, hr, hh⟩ := h.2
      exact ⟨r, List.mem_append_left _ hr, hh⟩

theorem clear_held {db : Db} {hash : Bytes} {id : Int} (h : HeldIn db hash id) (limit : Int)
    (hl : ∀ r ∈ db.tokens, r.g.hash = hex hash → ¬ (r.lockTime ≠ 0 ∧ r.lockTime < limit)) :
    HeldIn { db with tokens := db.tokens.map fun r => if r.lockTime ≠ 0 ∧ r.lockTime < limit then { r with lockID := 0, lockTime := 0 } else r } hash id := by
  constructor
  · intro r hr hh
    obtain ⟨r0, h0, h1⟩ := List.mem_map.mp hr
    by_cases hm : r0.lockTime ≠ 0 ∧ r0.lockTime < limit
    · rw [if_pos hm] at h1
      have : r0.g.hash = hex hash := by rw [← h1] at hh; exact hh
      exact absurd hm (hl r0 h0 this)
    · rw [if_neg hm] at h1
      rw [← h1] at hh ⊢
      exact h.1 r0 h0 hh
  · obtain ⟨r, hr, hh⟩ := h.2
    refine ⟨r, List.mem_map.mpr ⟨r, hr, ?_⟩, hh⟩
    rw [if_neg (hl r hr hh)]

theorem unhex_inj_hex {a b : Bytes} (h : unhex (hex a) = some b) : a = b := by
  rw [unhex_hex] at h; exact Option.some.inj h

theorem nodup_map_inj {l : List Row} (h : (l.map (·.g.hash)).Nodup) {a b : Row} (ha : a ∈ l) (hb : b ∈ l) (e : a.g.hash = b.g.hash) : a = b := by
  induction l with
  | nil => cases ha
  | cons x l ih =>
    rw [List.map_cons, List.nodup_cons] at h
    rcases List.mem_cons.mp ha with h1 | h1
    · rcases List.mem_cons.mp hb with h2 | h2
      · rw [h1, h2]
      · exact absurd (List.mem_map.mpr ⟨b, h2, by rw [← e, h1]⟩) h.1
    · rcases List.mem_cons.mp hb with h2 | h2
      · exact absurd (List.mem_map.mpr ⟨a, h1, by rw [e, h2]⟩) h.1
      · exact ih h.2 h1 h2

theorem Wf.inj {db : Db} (hw : Wf db) {a b : Row} (ha : a ∈ db.tokens) (hb : b ∈ db.tokens) (e : a.g.hash = b.g.hash) : a = b :=
  nodup_map_inj hw.unique ha hb e

theorem Wf.hex_of_unhex {db : Db} (hw : Wf db) {r : Row} (h : r ∈ db.tokens) {b : Bytes} (hx : unhex r.g.hash = some b) : r.g.hash = hex b := by
  obtain ⟨c, hc⟩ := hw.isHex r h
  rw [hc] at hx ⊢
  rw [unhex_inj_hex hx]

theorem row_unique {db : Db} (hw : Wf db) {r : Row} (hr : r ∈ db.tokens) {k : Bytes} (hh : r.g.hash = k) : db.row k = some r := by
  unfold Db.row
  cases hf : db.tokens.find? (·.g.hash == k) with
  | none =>
    rw [List.find?_eq_none] at hf
    exact absurd (by rw [hh]; exact BEq.rfl) (hf r hr)
  | some x =>
    have h1 : (x.g.hash == k) = true := List.find?_some (p := fun r : Row => r.g.hash == k) hf
    rw [hw.inj (List.mem_of_find?_eq_some hf) hr ((eq_of_beq h1).trans hh.symm)]

theorem expire_mem {db : Db} (hw : Wf db) (now : Int) (r : Row) :
    r ∈ (db.expire now).1.tokens ↔ r ∈ db.tokens ∧ r ∉ (db.tokens.filter (unusable now)).take 10 := by
  unfold Db.expire
  simp only
  rw [(foldl_del _ _).1, List.mem_filter]
  constructor
  · rintro ⟨h1, h2⟩
    refine ⟨h1, ?_⟩
    intro h3
    simp only [Bool.not_eq_true', List.contains_eq_mem, decide_eq_false_iff_not] at h2
    apply h2
    obtain ⟨b, hb⟩ := hw.isHex r h1
    refine List.mem_map.mpr ⟨b, List.mem_filterMap.mpr ⟨r, h3, ?_⟩, hb.symm⟩
    rw [hb, unhex_hex]
  · rintro ⟨h1, h2⟩
    refine ⟨h1, ?_⟩
    simp only [Bool.not_eq_true', List.contains_eq_mem, decide_eq_false_iff_not]
    intro h3
    obtain ⟨b, h4, h5⟩ := List.mem_map.mp h3
    obtain ⟨r', h6, h7⟩ := List.mem_filterMap.mp h4
    have h8 : r' ∈ db.tokens := (List.mem_filter.mp (List.mem_of_mem_take h6)).1
    obtain ⟨c, hc⟩ := hw.isHex r' h8
    rw [hc] at h7
    have := unhex_inj_hex h7
    have h9 : r'.g.hash = r.g.hash := by rw [hc, this, h5]
    have : r' = r := hw.inj h8 h1 h9
    rw [this] at h6
    exact h2 h6

theorem step_held {db : Db} (hw : Wf db) {hash : Bytes} {id : Int} (h : HeldIn db hash id) (hid : id ≠ 0) (op : Op)
    (ho : op.leaves hash id db) : HeldIn (step db op) hash id := by
  cases op with
  | set e =>
    simp only [step]
    split
    · rename_i d hd
      obtain ⟨g, s, _, h2⟩ := setToken_tokens hd
      have := setRow_held h g
      unfold HeldIn Held at this ⊢
      rw [h2]
      exact this
    · exact h
  | lock h' i n => exact lock_held h hid _ _ _ ho
  | unlock h' =>
    have ho : h' ≠ hash := ho
    have hx : hex h' ≠ hex hash := fun e => ho (hex_inj e)
    simp only [step, Db.unlock]
    constructor
    · intro r hr hh
      obtain ⟨r0, h0, h1⟩ := List.mem_map.mp hr
      by_cases hm : (r0.g.hash == hex h') = true
      · rw [if_pos hm] at h1
        have e : r0.g.hash = hex hash := by rw [← h1] at hh; exact hh
        exact absurd ((eq_of_beq hm).symm.trans e) hx
      · rw [if_neg hm] at h1
        rw [← h1] at hh ⊢
        exact h.1 r0 h0 hh
    · obtain ⟨r, hr, hh⟩ := h.2
      refine ⟨r, List.mem_map.mpr ⟨r, hr, ?_⟩, hh⟩
      rw [if_neg]
      intro hm
      exact hx ((eq_of_beq hm).symm.trans hh)
  | del h' =>
    have ho : h' ≠ hash := ho
    have hx : hex h' ≠ hex hash := fun e => ho (hex_inj e)
    simp only [step, Db.delToken]
    constructor
    · intro r hr hh
      exact h.1 r (List.mem_filter.mp hr).1 hh
    · obtain ⟨r, hr, hh⟩ := h.2
      refine ⟨r, List.mem_filter.mpr ⟨hr, ?_⟩, hh⟩
      rw [Bool.not_eq_true', Bool.eq_false_iff]
      intro hm
      exact hx ((eq_of_beq hm).symm.trans hh)
  | clean f n => exact clear_held h _ ho
  | reopen n => exact clear_held h _ ho
  | take u o n ids => exact take_held hid u o n ids ho 5 h
  | expire n =>
    simp only [step]
    constructor
    · intro r hr hh
      exact h.1 r ((expire_mem hw n r).mp hr).1 hh
    · obtain ⟨r, hr, hh⟩ := h.2
      refine ⟨r, (expire_mem hw n r).mpr ⟨hr, ?_⟩, hh⟩
      intro hm
      have := (List.mem_filter.mp (List.mem_of_mem_take hm)).2
      unfold unusable at this
      exact ho r hr hh (of_decide_eq_true this)

theorem run_held {db : Db} (hw : Wf db) {hash : Bytes} {id : Int} (h : HeldIn db hash id) (hid : id ≠ 0) (ops : List Op)
    (ho : Undisturbed hash id db ops) : HeldIn (run db ops) hash id := by
  induction ops generalizing db with
  | nil => exact h
  | cons op ops ih => exact ih (step_wf hw op) (step_held hw h hid op ho.1) ho.2

theorem lock_rows {db : Db} (hw : Wf db) {hash : Bytes} {id now : Int} (hid : id ≠ -1) (hf : ∀ r ∈ db.tokens, r.lockID ≠ id)
    (h : (db.lock hash id now).2 = id) : HeldIn (db.lock hash id now).1 hash id ∧ ∃ r ∈ db.tokens, r.g.hash = hex hash ∧ r.lockID = 0 := by
  unfold Db.lock at h ⊢
  split at h
  · rename_i hm
    rw [if_pos hm]
    obtain ⟨r, hr, hmr⟩ := List.any_eq_true.mp hm
    have hmr' := hmr
    unfold lockMatches at hmr
    simp only [Bool.or_eq_true, Bool.and_eq_true, beq_iff_eq] at hmr
    have hh : r.g.hash = hex hash ∧ r.lockID = 0 := by
      rcases hmr with hmr | hmr
      · exact hmr
      · exact absurd hmr (hf r hr)
    refine ⟨⟨?_, ?_⟩, r, hr, hh⟩
    · intro x hx hxh
      obtain ⟨x0, h0, h1⟩ := List.mem_map.mp hx
      by_cases hm0 : lockMatches hash id x0 = true
      · rw [if_pos hm0] at h1; rw [← h1]
      · rw [if_neg hm0] at h1
        rw [← h1] at hxh
        have : x0 = r := hw.inj h0 hr (hxh.trans hh.1.symm)
        rw [this] at hm0
        exact absurd hmr' hm0
    · refine ⟨_, List.mem_map_of_mem hr, ?_⟩
      rw [if_pos hmr']
      exact hh.1
  · exact absurd h.symm hid

/-- C36, partial: after a successful lock with an ID nobody else has, no other lock of the
token succeeds, through any calls by anyone that do not unlock, delete or expire it, clear its
lock or draw its ID. What is missing are these three cases: see the theorems below. -/
theorem C36_exclusive_partial (db : Db) (hw : Wf db) (hash : Bytes) (id now : Int) (hid : id > 0) (hf : ∀ r ∈ db.tokens, r.lockID ≠ id)
    (h : (db.lock hash id now).2 = id) (ops : List Op) (ho : Undisturbed hash id (db.lock hash id now).1 ops)
    (id' now' : Int) (hf' : ∀ r ∈ (run (db.lock hash id now).1 ops).tokens, r.lockID ≠ id') :
    ((run (db.lock hash id now).1 ops).lock hash id' now').2 = -1 := by
  obtain ⟨h1, _⟩ := lock_rows hw (by omega) hf h
  have h2 := run_held (hw.of_hashes (lock_hashes _ _ _ _)) h1 (by omega) ops ho
  unfold Db.lock
  rw [if_neg]
  intro hm
  obtain ⟨r, hr, hmr⟩ := List.any_eq_true.mp hm
  unfold lockMatches at hmr
  simp only [Bool.or_eq_true, Bool.and_eq_true, beq_iff_eq] at hmr
  rcases hmr with hmr | hmr
  · have := h2.1 r hr hmr.1
    omega
  · exact hf' r hr hmr

/-- A token that exists and is not locked can be locked. -/
theorem C36_free (db : Db) (hash : Bytes) (id now : Int) (r : Row) (hr : r ∈ db.tokens) (hh : r.g.hash = hex hash) (hl : r.lockID = 0) :
    (db.lock hash id now).2 = id := by
  unfold Db.lock
  rw [if_pos]
  refine List.any_eq_true.mpr ⟨r, hr, ?_⟩
  unfold lockMatches
  simp [hh, hl]

/-- An unlocked token can be locked by the next party. -/
theorem C36_unlocked_free (db : Db) (hash : Bytes) (id now : Int) (h : ∃ r ∈ db.tokens, r.g.hash = hex hash) :
    ((db.unlock hash).lock hash id now).2 = id := by
  obtain ⟨r, hr, hh⟩ := h
  refine C36_free _ hash id now { r with lockID := 0, lockTime := 0 } ?_ hh rfl
  refine List.mem_map.mpr ⟨r, hr, ?_⟩
  rw [hh]
  simp only [BEq.rfl, if_true]

/-- C36, violation: two parties that draw the same random ID hold the same token. The IDs are
31 bits of a generator that is seeded with the time on each call. -/
theorem C36_collision (db : Db) (hash : Bytes) (id now now' : Int) (h : (db.lock hash id now).2 = id) (hid : id ≠ -1) :
    ((db.lock hash id now).1.lock hash id now').2 = id := by
  unfold Db.lock at h ⊢
  split at h
  · rename_i hm
    simp only [hm, if_true]
    rw [if_pos]
    obtain ⟨r, hr, hmr⟩ := List.any_eq_true.mp hm
    refine List.any_eq_true.mpr ⟨_, List.mem_map_of_mem hr, ?_⟩
    rw [if_pos hmr]
    unfold lockMatches
    simp
  · exact absurd h.symm hid

/-- C36, violation: with the ID of any other lock, a lock succeeds even of a token that does
not exist. -/
theorem C36_absent_locked (db : Db) (hash : Bytes) (id now : Int) (r : Row) (hr : r ∈ db.tokens) (hl : r.lockID = id) :
    (db.lock hash id now).2 = id := by
  unfold Db.lock
  rw [if_pos]
  refine List.any_eq_true.mpr ⟨r, hr, ?_⟩
  unfold lockMatches
  simp [hl]

/-- C36, violation: opening the store again releases every lock that was taken up to now and
even up to an hour later. Only locks older than an hour should be released. -/
theorem C36_reopen_releases (db : Db) (now : Int) (hash : Bytes)
    (ht : ∀ r ∈ db.tokens, r.g.hash = hex hash → r.lockTime ≠ 0 ∧ r.lockTime ≤ now) : Held (db.reopen now) hash 0 := by
  intro r hr hh
  obtain ⟨r0, h0, h1⟩ := List.mem_map.mp hr
  rw [if_neg (by decide : ¬ (false = true))] at h1
  by_cases hn : r0.lockTime ≠ 0 ∧ r0.lockTime < now + maxLockAge
  · rw [if_pos hn] at h1; rw [← h1]
  · rw [if_neg hn] at h1
    rw [← h1] at hh
    have := ht r0 h0 hh
    unfold maxLockAge at hn
    omega

/-! ### C86 taking tokens -/

theorem minExpire_some {l : List Row} {m : Row} (h : minExpire l = some m) : m ∈ l ∧ ∀ x ∈ l, m.g.expire ≤ x.g.expire := by
  induction l generalizing m with
  | nil => cases h
  | cons r l ih =>
    unfold minExpire at h
    split at h
    · rename_i hn
      cases h
      have : l = [] := by
        cases l with
        | nil => rfl
        | cons a l =>
          unfold minExpire at hn
          split at hn
          · cases hn
          · split at hn <;> cases hn
      simp [this]
    · rename_i m' hm
      obtain ⟨h1, h2⟩ := ih hm
      split at h
      · cases h
        refine ⟨List.mem_cons_of_mem _ h1, ?_⟩
        intro x hx
        rcases List.mem_cons.mp hx with rfl | hx
        · omega
        · exact h2 x hx
      · cases h
        refine ⟨List.mem_cons_self, ?_⟩
        intro x hx
        rcases List.mem_cons.mp hx with rfl | hx
        · omega
        · have := h2 x hx; omega

theorem minExpire_none {l : List Row} : minExpire l = none ↔ l = [] := by
  cases l with
  | nil => simp [minExpire]
  | cons a l =>
    simp only [reduceCtorEq, iff_false]
    intro h
    unfold minExpire at h
    split at h
    · cases h
    · split at h <;> cases h

theorem decode_hash {g : Global} {s : Bytes} {e : Entry} (h : decodeToken g s = some e) : unhex g.hash = some e.hash := by
  unfold decodeToken decodeState at h
  simp only [Option.bind_eq_some_iff] at h
  obtain ⟨h', h1, _, _, _, _, _, _, h⟩ := h
  rw [h1]
  split at h
  · simp only [Option.bind_eq_some_iff] at h
    obtain ⟨_, _, _, _, _, _, _, _, _, _, _, _, _, _, h⟩ := h
    cases h; rfl
  · cases h; rfl

theorem getToken_hash {db : Db} {hash : Bytes} {l : Int} {e : Entry} (h : db.getToken hash l = .ok e) : e.hash = hash := by
  unfold Db.getToken at h
  split at h
  · cases h
  · rename_i r hr
    split at h
    · cases h
    · split at h
      · cases h
      · split at h
        · cases h
        · rename_i e' he
          cases h
          have h1 := decode_hash he
          have h2 : (r.g.hash == hex hash) = true := List.find?_some (p := fun r : Row => r.g.hash == hex hash) hr
          rw [eq_of_beq h2, unhex_hex] at h1
          exact (Option.some.inj h1).symm

/-- A token that is held is never handed out. -/
theorem C36_held_not_taken (db : Db) (u : Bytes) (o : Option Bytes) (now : Int) (n : Nat) (ids : Nat → Int) (hash : Bytes) (id : Int)
    (hw : Wf db) (hid : id ≠ 0) (h : HeldIn db hash id) (hi : ∀ k, ids k ≠ id) (d : Db) (e : Entry)
    (ht : db.getAndLock u o now n ids = (d, .ok e)) : e.hash ≠ hash := by
  induction n generalizing db with
  | zero => cases ht
  | succ n ih =>
    have h1 := take1_held h hid u o (ids n) now (hi n)
    unfold Db.getAndLock at ht
    split at ht
    · rename_i db' hh
      have h2 := getAndLock1_hashes db u o (ids n) now
      rw [hh] at h1 h2
      exact ih db' (hw.of_hashes h2) h1 ht
    · unfold Db.getAndLock1 at ht
      split at ht
      · cases ht
      · rename_i r hr
        split at ht
        · cases ht
        · rename_i hash' hx
          simp only at ht
          split at ht
          · cases ht
          · have hg : (db.lock hash' (ids n) now).1.getToken hash' (db.lock hash' (ids n) now).2 = .ok e := (Prod.mk.inj ht).2
            have := getToken_hash hg
            rw [this]
            intro e2
            obtain ⟨h3, _⟩ := minExpire_some hr
            obtain ⟨h4, h5⟩ := List.mem_filter.mp h3
            have h6 : r.lockID = 0 := by
              unfold usable at h5
              simp only [Bool.and_eq_true, beq_iff_eq] at h5
              exact h5.1.1.1.1
            have h7 := hw.hex_of_unhex h4 hx
            rw [e2] at h7
            exact hid (by rw [← h.1 r h4 h7, h6])

theorem lock_fresh {db : Db} (hash : Bytes) (id now : Int) (r : Row) (hr : r ∈ db.tokens) (hh : r.g.hash = hex hash) (hl : r.lockID = 0)
    (hf : ∀ x ∈ db.tokens, x.lockID ≠ id) (hw : Wf db) : db.lock hash id now =
      ({ db with tokens := db.tokens.map fun x => if x = r then { r with lockID := id, lockTime := now } else x }, id) := by
  unfold Db.lock
  rw [if_pos (List.any_eq_true.mpr ⟨r, hr, by unfold lockMatches; simp [hh, hl]⟩)]
  congr 2
  apply List.map_congr_left
  intro x hx
  by_cases e : x = r
  · rw [if_pos e, e, if_pos]
    unfold lockMatches
    simp [hh, hl]
  · rw [if_neg e, if_neg]
    unfold lockMatches
    simp only [Bool.or_eq_true, Bool.and_eq_true, beq_iff_eq, not_or, not_and]
    refine ⟨?_, hf x hx⟩
    intro h1
    exact absurd (hw.inj hx hr (h1.trans hh.symm)) e

theorem count_locked (p : Row → Bool) (r r' : Row) (hp : p r = true) (hp' : p r' = false) (l : List Row) (hn : l.Nodup) (hr : r ∈ l) :
    ((l.map fun x => if x = r then r' else x).filter p).length + 1 = (l.filter p).length := by
  induction l with
  | nil => cases hr
  | cons a l ih =>
    rw [List.nodup_cons] at hn
    rw [List.map_cons]
    by_cases e : a = r
    · rw [if_pos e]
      subst e
      rw [List.filter_cons, List.filter_cons, hp, hp']
      have : (l.map fun x => if x = a then r' else x) = l := by
        rw [List.map_congr_left (g := id)]
        · exact List.map_id l
        · intro x hx
          rw [if_neg]
          · rfl
          · intro e; rw [e] at hx; exact hn.1 hx
      rw [this]; rfl
    · rw [if_neg e]
      have hr : r ∈ l := by
        rcases List.mem_cons.mp hr with h | h
        · exact absurd h.symm e
        · exact h
      have := ih hn.2 hr
      rw [List.filter_cons, List.filter_cons]
      split <;> first | omega | (simp only [List.length_cons]; omega)

theorem nodup_of_map {l : List Row} (h : (l.map (·.g.hash)).Nodup) : l.Nodup := by
  rw [List.Nodup, List.pairwise_map] at h
  exact h.imp fun h e => h (by rw [e])

/-- C86: with no token of the usage and owner in the balance, nothing is taken. -/
theorem C86_empty (db : Db) (u : Bytes) (o : Option Bytes) (now : Int) (n : Nat) (ids : Nat → Int) (hb : db.balance u o = 0) :
    db.getAndLock u o now n ids = (db, .err .noToken) := by
  cases n with
  | zero => rfl
  | succ n =>
    unfold Db.getAndLock Db.getAndLock1
    unfold Db.balance at hb
    rw [List.length_eq_zero_iff.mp hb]
    rfl

/-- A token that may be spent: nobody holds it, it is not in reissue, it has no private key in the
wallet, and it has the usage, and the owner if one is given. -/
structure Spendable (u : Bytes) (o : Option Bytes) (r : Row) : Prop where
  free : r.lockID = 0
  notInReissue : r.g.hasState = false
  foreign : r.g.ownedSelf = false
  usage : r.g.usage = u
  owner : ∀ pub, o = some pub → r.g.ownerPub = Base64.encode pub

theorem usable_iff (u : Bytes) (o : Option Bytes) (r : Row) : usable u o r = true ↔ Spendable u o r := by
  unfold usable
  simp only [Bool.and_eq_true, beq_iff_eq, Bool.not_eq_true']
  constructor
  · rintro ⟨⟨⟨⟨h1, h2⟩, h3⟩, h4⟩, h5⟩
    refine ⟨h1, h2, h3, h4, ?_⟩
    rintro pub rfl
    simpa using h5
  · rintro ⟨h1, h2, h3, h4, h5⟩
    refine ⟨⟨⟨⟨h1, h2⟩, h3⟩, h4⟩, ?_⟩
    cases o with
    | none => rfl
    | some pub => simpa using h5 pub rfl

/-- C86: with tokens in the balance, the one that expires first is locked with the ID of the
call and returned, and the balance is one less. -/
theorem C86_take (db : Db) (hw : Wf db) (u : Bytes) (o : Option Bytes) (now : Int) (n : Nat) (ids : Nat → Int) (hb : db.balance u o > 0)
    (hid : ids n > 0) (hf : ∀ r ∈ db.tokens, r.lockID ≠ ids n) :
    ∃ r ∈ db.tokens, Spendable u o r ∧ (∀ x ∈ db.tokens, Spendable u o x → r.g.expire ≤ x.g.expire) ∧
      ∃ hash, r.g.hash = hex hash ∧ HeldIn (db.getAndLock u o now (n + 1) ids).1 hash (ids n) ∧
      (db.getAndLock u o now (n + 1) ids).2 = db.getToken hash (-1) ∧
      (db.getAndLock u o now (n + 1) ids).1.balance u o = db.balance u o - 1 := by
  cases hm : minExpire (db.tokens.filter (usable u o)) with
  | none =>
    rw [minExpire_none] at hm
    unfold Db.balance at hb
    rw [hm] at hb
    cases hb
  | some r =>
    obtain ⟨h3, h4⟩ := minExpire_some hm
    obtain ⟨hr, hu⟩ := List.mem_filter.mp h3
    obtain ⟨hash, hh⟩ := hw.isHex r hr
    have hl : r.lockID = 0 := by
      unfold usable at hu
      simp only [Bool.and_eq_true, beq_iff_eq] at hu
      exact hu.1.1.1.1
    have hlock := lock_fresh hash (ids n) now r hr hh hl hf hw
    have hheld := (lock_rows (now := now) (hash := hash) hw (by omega) hf (by rw [hlock])).1
    refine ⟨r, hr, (usable_iff u o r).mp hu, fun x hx hux => h4 x (List.mem_filter.mpr ⟨hx, (usable_iff u o x).mpr hux⟩), hash, hh, ?_⟩
    have h1 : db.getAndLock1 u o (ids n) now = ((db.lock hash (ids n) now).1, (db.lock hash (ids n) now).1.getToken hash (ids n)) := by
      unfold Db.getAndLock1
      rw [hm]
      simp only [hh, unhex_hex]
      rw [show (db.lock hash (ids n) now).2 = ids n by rw [hlock]]
      rw [if_neg (by omega)]
    have hrow : db.row (hex hash) = some r := row_unique hw hr hh
    have hrow' : (db.lock hash (ids n) now).1.row (hex hash) = some { r with lockID := ids n, lockTime := now } := by
      rw [hlock]
      unfold Db.row at hrow ⊢
      simp only
      rw [List.find?_map]
      have : ((fun x : Row => x.g.hash == hex hash) ∘ fun x => if x = r then { r with lockID := ids n, lockTime := now } else x) =
          fun x => x.g.hash == hex hash := by
        funext x
        simp only [Function.comp]
        split
        · rename_i e; rw [e]
        · rfl
      rw [this, hrow]
      simp
    have hget : (db.lock hash (ids n) now).1.getToken hash (ids n) = db.getToken hash (-1) := by
      unfold Db.getToken
      rw [hrow, hrow']
      simp only
      rw [if_neg (by omega), if_neg (by omega)]
      have : (db.lock hash (ids n) now).1.state r.g (hex hash) = db.state r.g (hex hash) := by
        unfold Db.state; rw [hlock]
      rw [this]
    have h2 : db.getAndLock u o now (n + 1) ids = ((db.lock hash (ids n) now).1, db.getToken hash (-1)) := by
      unfold Db.getAndLock
      rw [h1, hget]
      split
      · rename_i db' he
        exfalso
        have he := (Prod.mk.inj he).2
        unfold Db.getToken at he
        rw [hrow] at he
        simp only at he
        rw [if_neg (by omega)] at he
        split at he
        · cases he
        · split at he <;> cases he
      · rfl
    rw [h2]
    refine ⟨hheld, rfl, ?_⟩
    unfold Db.balance
    rw [hlock]
    have := count_locked (usable u o) r { r with lockID := ids n, lockTime := now } hu (by
      unfold usable
      have : (ids n == 0) = false := by simpa using (by omega : ids n ≠ 0)
      simp [this]) db.tokens (nodup_of_map hw.unique) hr
    simp only
    omega

/-- Non-vacuity of C36 and C86: a database with one usable token, made by calls. -/
def exDb : Db := run ⟨[], []⟩ [.set ⟨[1, 2], [3], none, some (List.replicate 32 5), none, true, true, [117], 100, none, none, none, none⟩]

example : Wf exDb ∧ exDb.balance [117] none = 1 ∧ (∀ r ∈ exDb.tokens, r.lockID ≠ 7) ∧ (exDb.lock [1, 2] 7 50).2 = 7 ∧
    Undisturbed [1, 2] 7 (exDb.lock [1, 2] 7 50).1 [.lock [9] 8 60, .take [117] none 60 fun _ => 9] ∧
    ((exDb.lock [1, 2] 7 50).1.lock [1, 2] 8 60).2 = -1 ∧ ((exDb.lock [1, 2] 7 50).1.reopen 60).balance [117] none = 1 := by
  refine ⟨run_wf empty_wf _, by decide +kernel, by decide +kernel, by decide +kernel, ⟨?_, ?_, trivial⟩, by decide +kernel, by decide +kernel⟩
  · exact (by decide : (8 : Int) ≠ 7)
  · exact fun _ => (by decide : (9 : Int) ≠ 7)

/-! ### C43 expiry -/

/-- One call keeps every token that is not past the margin, makes up no token, and asks to
be called again exactly if ten were deleted. -/
theorem C43_one_call (db : Db) (hw : Wf db) (now : Int) :
    (∀ r ∈ db.tokens, now - 604800 ≤ r.g.expire → r ∈ (db.expire now).1.tokens) ∧
    (db.expire now).1.tokens.Sublist db.tokens ∧
    ((db.expire now).2 = true ↔ 10 ≤ (db.tokens.filter fun r => decide (r.g.expire < now - 604800)).length) := by
  refine ⟨?_, expire_sub db now, ?_⟩
  · intro r hr he
    refine (expire_mem hw now r).mpr ⟨hr, ?_⟩
    intro hm
    have := (List.mem_filter.mp (List.mem_of_mem_take hm)).2
    unfold unusable expireEdge at this
    have := of_decide_eq_true this
    omega
  · unfold Db.expire
    simp only [decide_eq_true_eq]
    have hl : ∀ l : List Row, (∀ r ∈ l, r ∈ db.tokens) → (l.filterMap fun r => unhex r.g.hash).length = l.length := by
      intro l hl
      induction l with
      | nil => rfl
      | cons a l ih =>
        obtain ⟨b, hb⟩ := hw.isHex a (hl a List.mem_cons_self)
        rw [List.filterMap_cons, hb, unhex_hex]
        simp only [List.length_cons]
        rw [ih fun r hr => hl r (List.mem_cons_of_mem _ hr)]
    rw [hl _ fun r hr => (List.mem_filter.mp (List.mem_of_mem_take hr)).1, List.length_take]
    unfold unusable expireEdge
    omega

theorem take_not_mem_filter (l : List Row) (hn : l.Nodup) (k : Nat) : (l.filter fun r => decide (r ∉ l.take k)) = l.drop k := by
  induction l generalizing k with
  | nil => simp
  | cons a l ih =>
    rw [List.nodup_cons] at hn
    cases k with
    | zero => simp
    | succ k =>
      rw [List.take_succ_cons, List.drop_succ_cons, List.filter_cons, if_neg (by simp)]
      rw [← ih hn.2 k]
      apply List.filter_congr
      intro x hx
      have : x ≠ a := fun e => hn.1 (e ▸ hx)
      simp [this]

theorem expire_tokens {db : Db} (hw : Wf db) (now : Int) :
    (db.expire now).1.tokens = db.tokens.filter fun r => decide (r ∉ (db.tokens.filter (unusable now)).take 10) := by
  have h1 := expire_mem hw now
  have h2 : ∃ p : Row → Bool, (db.expire now).1.tokens = db.tokens.filter p := by
    unfold Db.expire
    simp only
    rw [(foldl_del _ _).1]
    exact ⟨_, rfl⟩
  obtain ⟨p, hp⟩ := h2
  rw [hp] at h1 ⊢
  apply List.filter_congr
  intro r hr
  have := h1 r
  rw [List.mem_filter] at this
  rw [Bool.eq_iff_iff, decide_eq_true_eq]
  constructor
  · intro h; exact (this.mp ⟨hr, h⟩).2
  · intro h; exact (this.mpr ⟨hr, h⟩).2

theorem expire_filters {db : Db} (hw : Wf db) (now : Int) :
    (db.expire now).1.tokens.filter (unusable now) = (db.tokens.filter (unusable now)).drop 10 ∧
    (db.expire now).1.tokens.filter (fun r => !unusable now r) = db.tokens.filter (fun r => !unusable now r) := by
  rw [expire_tokens hw]
  constructor
  · rw [← take_not_mem_filter _ ((nodup_of_map hw.unique).filter _) 10, List.filter_filter, List.filter_filter]
    apply List.filter_congr
    intro r _
    rw [Bool.and_comm]
  · rw [List.filter_filter]
    apply List.filter_congr
    intro r _
    by_cases hu : unusable now r = true
    · simp [hu]
    · have : r ∉ (db.tokens.filter (unusable now)).take 10 := fun h => hu (List.mem_filter.mp (List.mem_of_mem_take h)).2
      simp [this]

/-- C43: calling until it says that it is done ends, after one call more than there are
groups of ten, with exactly the tokens that are not past the margin. -/
theorem C43_all_calls (db : Db) (hw : Wf db) (now : Int) (n : Nat)
    (hn : (db.tokens.filter fun r => decide (r.g.expire < now - 604800)).length < 10 * n) :
    (Db.expireLoop now n db).2 = false ∧
    (Db.expireLoop now n db).1.tokens = db.tokens.filter fun r => decide (now - 604800 ≤ r.g.expire) := by
  have hnot : (fun r : Row => decide (now - 604800 ≤ r.g.expire)) = fun r => !unusable now r := by
    funext r
    unfold unusable expireEdge
    rw [Bool.eq_iff_iff]
    simp
  rw [hnot]
  change (db.tokens.filter (unusable now)).length < 10 * n at hn
  induction n generalizing db with
  | zero => omega
  | succ n ih =>
    obtain ⟨h1, h2⟩ := expire_filters hw now
    have h3 := (C43_one_call db hw now).2.2
    change _ ↔ 10 ≤ (db.tokens.filter (unusable now)).length at h3
    unfold Db.expireLoop
    split
    · rename_i db' he
      rw [he] at h1 h2
      have hw' : Wf db' := by
        have := hw.of_sublist (expire_sub db now)
        rw [he] at this
        exact this
      have h10 := h3.mp (by rw [he])
      have := ih db' hw' (by rw [h1, List.length_drop]; omega)
      rw [h2] at this
      exact this
    · rename_i r he
      have hf : (db.expire now).2 = false := by
        cases hb : (db.expire now).2 with
        | false => rfl
        | true => exact (he (db.expire now).1 (Prod.ext rfl hb)).elim
      refine ⟨hf, ?_⟩
      rw [← h2]
      symm
      apply List.filter_eq_self.mpr
      intro x hx
      have hlt : (db.tokens.filter (unusable now)).length < 10 := by
        have := mt h3.mpr (by rw [hf]; decide)
        omega
      rw [List.drop_of_length_le (by omega)] at h1
      cases hu : unusable now x with
      | false => rfl
      | true =>
        have : x ∈ (db.expire now).1.tokens.filter (unusable now) := List.mem_filter.mpr ⟨hx, hu⟩
        rw [h1] at this
        cases this

/-- The state of a kept token is kept. -/
theorem C43_state_kept (db : Db) (now : Int) (r : Row) (hr : r ∈ (db.expire now).1.tokens) (s : Bytes)
    (hs : (r.g.hash, s) ∈ db.states) : (r.g.hash, s) ∈ (db.expire now).1.states := by
  unfold Db.expire at hr ⊢
  simp only at hr ⊢
  rw [(foldl_del _ _).1] at hr
  rw [(foldl_del _ _).2]
  exact List.mem_filter.mpr ⟨hs, (List.mem_filter.mp hr).2⟩

/-- A lock does not protect a token from expiry: it is deleted also while it is being
reissued or used. -/
theorem C43_locked_deleted (db : Db) (hw : Wf db) (now : Int) (r : Row) (he : r.g.expire < now - 604800) (n : Nat)
    (hn : (db.tokens.filter fun r => decide (r.g.expire < now - 604800)).length < 10 * n) :
    r ∉ (Db.expireLoop now n db).1.tokens := by
  rw [(C43_all_calls db hw now n hn).2]
  intro h
  have := of_decide_eq_true (List.mem_filter.mp h).2
  omega

example : (exDb.expire 604900).1.tokens.length = 1 ∧ (exDb.expire 604901).1.tokens.length = 0 ∧ (exDb.expire 604901).2 = false := by
  decide +kernel

end Verif.Guard.Store

/-
The part of SQL the databases of the repository use: tables with an INTEGER
PRIMARY KEY. Rows are kept in insertion order, which is the order in which a
query without ORDER BY reports them.
-/
import Verif.Go

namespace Verif.Sql

/-- A table: row identifiers and rows. -/
abbrev Table (α : Type) := List (Nat × α)

variable {α : Type}

/-- The identifier SQLite gives to the next row: one more than the largest. -/
def nextId (t : Table α) : Nat := (t.map Prod.fst).foldl max 0 + 1

/-- INSERT. -/
def insert (t : Table α) (a : α) : Table α := t ++ [(nextId t, a)]

/-- The rows without their identifiers. -/
def vals (t : Table α) : List α := t.map Prod.snd

/-- SELECT … WHERE p, first row only (`QueryRow`). -/
def first (p : α → Bool) (t : Table α) : Option (Nat × α) := t.find? fun r => p r.2

/-- SELECT … WHERE p. -/
def select (p : α → Bool) (t : Table α) : Table α := t.filter fun r => p r.2

/-- UPDATE … SET f WHERE p. -/
def update (p : α → Bool) (f : α → α) (t : Table α) : Table α :=
  t.map fun r => if p r.2 then (r.1, f r.2) else r

/-- DELETE … WHERE p. -/
def delete (p : α → Bool) (t : Table α) : Table α := t.filter fun r => !p r.2

/-- SELECT … WHERE p ORDER BY id ASC LIMIT 1. -/
def firstAsc (p : α → Bool) : Table α → Option (Nat × α)
  | [] => none
  | r :: t =>
    match firstAsc p t with
    | none => if p r.2 then some r else none
    | some s => if p r.2 && decide (r.1 ≤ s.1) then some r else some s

/-- SELECT … WHERE id=i. -/
def byId (i : Nat) (t : Table α) : Option α := (t.find? fun r => r.1 == i).map Prod.snd

/-- UPDATE … SET f WHERE id=i. -/
def updateId (i : Nat) (f : α → α) (t : Table α) : Table α := t.map fun r => if r.1 == i then (r.1, f r.2) else r

/-- DELETE … WHERE id=i. -/
def deleteId (i : Nat) (t : Table α) : Table α := t.filter fun r => !(r.1 == i)

theorem le_foldl_max (l : List Nat) (m : Nat) : m ≤ l.foldl max m ∧ ∀ x ∈ l, x ≤ l.foldl max m := by
  induction l generalizing m with
  | nil => simp
  | cons a l ih =>
    obtain ⟨h1, h2⟩ := ih (max m a)
    simp only [List.foldl_cons]
    refine ⟨by omega, ?_⟩
    intro x hx
    rcases List.mem_cons.mp hx with rfl | hx
    · omega
    · exact h2 x hx

theorem lt_nextId (t : Table α) {r : Nat × α} (h : r ∈ t) : r.1 < nextId t := by
  have := (le_foldl_max (t.map Prod.fst) 0).2 r.1 (List.mem_map_of_mem h)
  unfold nextId
  omega

theorem vals_insert (t : Table α) (a : α) : vals (insert t a) = vals t ++ [a] := by
  simp [vals, insert]

theorem vals_delete (p : α → Bool) (t : Table α) :
    vals (delete p t) = (vals t).filter fun a => !p a := by
  simp only [vals, delete, List.filter_map]
  rfl

theorem first_vals (p : α → Bool) (t : Table α) : (first p t).map Prod.snd = (vals t).find? p := by
  simp only [first, vals, List.find?_map]
  rfl

theorem first_insert (p : α → Bool) (t : Table α) (a : α) :
    first p (insert t a) = (first p t).or (if p a then some (nextId t, a) else none) := by
  unfold first insert
  rw [List.find?_append]
  congr 1
  simp only [List.find?_cons, List.find?_nil]
  cases p a <;> rfl

theorem first_update (q p : α → Bool) (f : α → α) (t : Table α) (h : ∀ a, p a = true → q (f a) = q a) :
    first q (update p f t) = (first q t).map fun r => if p r.2 then (r.1, f r.2) else r := by
  unfold first update
  rw [List.find?_map]
  congr 2
  funext r
  simp only [Function.comp]
  by_cases hp : p r.2
  · simp [hp, h]
  · simp [hp]

/-! ### identifiers -/

/-- Rows are in the order of their identifiers, which are positive and unique. -/
def Sorted (t : Table α) : Prop := t.Pairwise (fun r s => r.1 < s.1) ∧ ∀ r ∈ t, 0 < r.1

theorem sorted_nil : Sorted ([] : Table α) := ⟨.nil, nofun⟩

theorem sorted_insert {t : Table α} (h : Sorted t) (a : α) : Sorted (insert t a) := by
  refine ⟨List.pairwise_append.mpr ⟨h.1, List.pairwise_singleton _ _, ?_⟩, ?_⟩
  · intro r hr s hs
    rw [List.mem_singleton.mp hs]
    exact lt_nextId t hr
  · intro r hr
    rcases List.mem_append.mp hr with hr | hr
    · exact h.2 r hr
    · rw [List.mem_singleton.mp hr]
      exact Nat.succ_pos _

theorem sorted_filter {t : Table α} (h : Sorted t) (p : Nat × α → Bool) : Sorted (t.filter p) :=
  ⟨h.1.filter _, fun r hr => h.2 r (List.mem_filter.mp hr).1⟩

theorem sorted_map {t : Table α} (h : Sorted t) (f : Nat × α → Nat × α) (hf : ∀ r, (f r).1 = r.1) : Sorted (t.map f) := by
  refine ⟨List.pairwise_map.mpr (h.1.imp fun {a b} hab => by rw [hf, hf]; exact hab), ?_⟩
  intro r hr
  obtain ⟨s, hs, rfl⟩ := List.mem_map.mp hr
  rw [hf]; exact h.2 s hs

theorem sorted_delete {t : Table α} (h : Sorted t) (p : α → Bool) : Sorted (delete p t) := sorted_filter h _
theorem sorted_deleteId {t : Table α} (h : Sorted t) (i : Nat) : Sorted (deleteId i t) := sorted_filter h _
theorem sorted_update {t : Table α} (h : Sorted t) (p : α → Bool) (f : α → α) : Sorted (update p f t) :=
  sorted_map h _ fun r => by split <;> rfl
theorem sorted_updateId {t : Table α} (h : Sorted t) (i : Nat) (f : α → α) : Sorted (updateId i f t) :=
  sorted_map h _ fun r => by split <;> rfl

/-- Two rows with the same identifier are the same row. -/
theorem sorted_unique {t : Table α} (h : Sorted t) {r s : Nat × α} (hr : r ∈ t) (hs : s ∈ t) (e : r.1 = s.1) : r = s := by
  induction t with
  | nil => cases hr
  | cons a t ih =>
    have h1 := List.pairwise_cons.mp h.1
    rcases List.mem_cons.mp hr with hr' | hr'
    · rcases List.mem_cons.mp hs with hs' | hs'
      · rw [hr', hs']
      · have := h1.1 s hs'; rw [hr'] at e; omega
    · rcases List.mem_cons.mp hs with hs' | hs'
      · have := h1.1 r hr'; rw [hs'] at e; omega
      · exact ih ⟨h1.2, fun r hr => h.2 r (List.mem_cons_of_mem _ hr)⟩ hr' hs'

theorem firstAsc_eq {t : Table α} (h : Sorted t) (p : α → Bool) : firstAsc p t = first p t := by
  induction t with
  | nil => rfl
  | cons r t ih =>
    have h1 := List.pairwise_cons.mp h.1
    have ih := ih ⟨h1.2, fun r hr => h.2 r (List.mem_cons_of_mem _ hr)⟩
    unfold firstAsc
    rw [ih]
    cases hf : first p t with
    | none =>
      unfold first at hf ⊢
      rw [List.find?_cons]
      cases hp : p r.2 with
      | true => rfl
      | false => simp only [Bool.false_eq_true, if_false]; exact hf.symm
    | some s =>
      have hs := List.mem_of_find?_eq_some hf
      have := h1.1 s hs
      unfold first at hf ⊢
      rw [List.find?_cons]
      cases hp : p r.2 with
      | true => simp [Nat.le_of_lt this]
      | false => simp only [Bool.false_and, Bool.false_eq_true, if_false]; exact hf.symm

theorem first_mem {p : α → Bool} {t : Table α} {r : Nat × α} (h : first p t = some r) : r ∈ t ∧ p r.2 = true :=
  ⟨List.mem_of_find?_eq_some h, List.find?_some (p := fun r : Nat × α => p r.2) h⟩

theorem byId_some {t : Table α} {i : Nat} {a : α} (h : byId i t = some a) : (i, a) ∈ t := by
  unfold byId at h
  obtain ⟨r, hr, rfl⟩ := Option.map_eq_some_iff.mp h
  have h1 := List.mem_of_find?_eq_some hr
  have h2 := List.find?_some (p := fun r : Nat × α => r.1 == i) hr
  have h3 : r.1 = i := eq_of_beq h2
  rw [← h3]; exact h1

theorem byId_mem {t : Table α} (h : Sorted t) {i : Nat} {a : α} (hm : (i, a) ∈ t) : byId i t = some a := by
  unfold byId
  cases hf : t.find? (fun r => r.1 == i) with
  | none =>
    have := List.find?_eq_none.mp hf (i, a) hm
    simp at this
  | some r =>
    have h1 := List.mem_of_find?_eq_some hf
    have h2 := List.find?_some (p := fun r : Nat × α => r.1 == i) hf
    have h3 : r.1 = i := eq_of_beq h2
    rw [sorted_unique h h1 hm h3]
    rfl

theorem byId_none {t : Table α} {i : Nat} (h : byId i t = none) (a : α) : (i, a) ∉ t := by
  intro hm
  have h : t.find? (fun r => r.1 == i) = none := by
    unfold byId at h
    cases hf : t.find? (fun r => r.1 == i) with
    | none => rfl
    | some r => rw [hf] at h; cases h
  have := List.find?_eq_none.mp h (i, a) hm
  simp at this

theorem mem_insert {t : Table α} {a : α} {r : Nat × α} : r ∈ insert t a ↔ r ∈ t ∨ r = (nextId t, a) := by
  simp [insert]

theorem mem_deleteId {t : Table α} {i : Nat} {r : Nat × α} : r ∈ deleteId i t ↔ r ∈ t ∧ r.1 ≠ i := by
  simp [deleteId]

theorem mem_delete {t : Table α} {p : α → Bool} {r : Nat × α} : r ∈ delete p t ↔ r ∈ t ∧ p r.2 = false := by
  simp [delete]

theorem mem_updateId {t : Table α} {i : Nat} {f : α → α} {r : Nat × α} :
    r ∈ updateId i f t ↔ (r ∈ t ∧ r.1 ≠ i) ∨ ∃ a, (i, a) ∈ t ∧ r = (i, f a) := by
  unfold updateId
  rw [List.mem_map]
  constructor
  · rintro ⟨s, hs, h⟩
    split at h
    · rename_i e
      have e : s.1 = i := eq_of_beq e
      exact .inr ⟨s.2, by rw [← e]; exact hs, by rw [← h, e]⟩
    · rename_i e
      subst h
      exact .inl ⟨hs, fun h => e (by rw [h]; exact beq_self_eq_true _)⟩
  · rintro (⟨h, hn⟩ | ⟨a, h, rfl⟩)
    · exact ⟨r, h, if_neg (fun e => hn (eq_of_beq e))⟩
    · exact ⟨(i, a), h, by simp⟩

theorem mem_update {t : Table α} {p : α → Bool} {f : α → α} {r : Nat × α} :
    r ∈ update p f t ↔ (r ∈ t ∧ p r.2 = false) ∨ ∃ a, (r.1, a) ∈ t ∧ p a = true ∧ r = (r.1, f a) := by
  unfold update
  rw [List.mem_map]
  constructor
  · rintro ⟨s, hs, h⟩
    split at h
    · rename_i e
      subst h
      exact .inr ⟨s.2, hs, e, rfl⟩
    · rename_i e
      subst h
      exact .inl ⟨hs, by simpa using e⟩
  · rintro (⟨h, hn⟩ | ⟨a, h, hp, e⟩)
    · exact ⟨r, h, by simp [hn]⟩
    · exact ⟨(r.1, a), h, by simp only [hp, if_true]; exact e.symm⟩

end Verif.Sql

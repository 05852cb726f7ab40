/-
C22: the hash chains of different domains do not affect each other.
-/
import Verif.Crypt.Props

namespace Verif.Crypt
open Verif.Uid

theorem first_delete_ne {α : Type} (p q : α → Bool) (t : Sql.Table α) (h : ∀ a, p a = true → q a = false) :
    Sql.first p (Sql.delete q t) = Sql.first p t := by
  unfold Sql.first Sql.delete
  rw [List.find?_filter]
  apply congrFun
  apply congrArg
  funext r
  cases hp : p r.2 with
  | false => simp
  | true => simp [h r.2 hp]

theorem first_delete_self {α : Type} (p q : α → Bool) (t : Sql.Table α) (h : ∀ a, p a = true → q a = true) :
    Sql.first p (Sql.delete q t) = none := by
  unfold Sql.first Sql.delete
  rw [List.find?_eq_none]
  intro r hr hp
  have := (List.mem_filter.mp hr).2
  rw [h r.2 hp] at this
  cases this

theorem top_delete_ne {α : Type} (key : α → UInt64) (p q : α → Bool) (t : Sql.Table α) (h : ∀ a, p a = true → q a = false) :
    top key p (Sql.delete q t) = top key p t := by
  unfold top
  rw [Sql.vals_delete]
  generalize (none : Option α) = b
  induction Sql.vals t generalizing b with
  | nil => rfl
  | cons a l ih =>
    by_cases hq : q a = true
    · have hp : p a = false := by
        cases hp : p a with
        | false => rfl
        | true => rw [h a hp] at hq; cases hq
      rw [List.filter_cons_of_neg (by simp [hq]), List.foldl_cons, ih]
      simp [hp]
    · rw [List.filter_cons_of_pos (by simp [hq]), List.foldl_cons, List.foldl_cons, ih]

/-- C22: deleting the hash chain of a domain leaves nothing of it and does not change what
is read of any other domain. -/
theorem C22_delete_chain (I : Ids) (db : DB) (domain other : Str) (pos : UInt64) :
    (I.mapDomain other = I.mapDomain domain → ∀ s, getEntry I (delChain I db domain) other pos ≠ .ok s) ∧
    (I.mapDomain other ≠ I.mapDomain domain →
      getEntry I (delChain I db domain) other pos = getEntry I db other pos ∧
      lastPos I (delChain I db domain) other = lastPos I db other) := by
  unfold getEntry delChain lastPos
  refine ⟨fun he s => ?_, fun hne => ⟨?_, ?_⟩⟩
  · split
    · simp
    · rw [first_delete_self _ _ _ (by intro a ha; simp_all)]
      simp
  · simp only
    rw [first_delete_ne _ _ _ (by intro a ha; simp only [Bool.and_eq_true, decide_eq_true_eq] at ha; simp [ha.1, hne])]
  · simp only
    rw [top_delete_ne _ _ _ _ (by intro a ha; simp only [decide_eq_true_eq] at ha; simp [ha, hne])]

theorem storeEntries_other (I : Ids) (domain other : Str) (hne : I.mapDomain other ≠ I.mapDomain domain) (last : UInt64) (pos : UInt64)
    (es : List (Option Str)) (i : UInt64) (db : DB) :
    getEntry I (storeEntries I domain last es i db).1 other pos = getEntry I db other pos := by
  induction es generalizing i db with
  | nil => unfold storeEntries; split <;> rfl
  | cons e es ih =>
    unfold storeEntries
    split
    · rfl
    · cases e with
      | none => rfl
      | some e =>
        simp only
        cases ha : addEntry I db domain i e with
        | none => rfl
        | some db' =>
          simp only
          rw [ih]
          unfold addEntry at ha
          split at ha
          · cases ha
            unfold getEntry
            simp only [Sql.first_insert]
            have : (decide ((I.mapDomain domain) = I.mapDomain other) && decide (i = pos)) = false := by
              simp [Ne.symm hne]
            simp only [this]
            simp
          · cases ha

/-- C22: synchronizing the chain of one domain, whatever the key server answers, changes
nothing that is read of the chain of another domain, neither adding nor removing entries. -/
theorem C22_sync_other_domain (I : Ids) (domain other : Str) (hne : I.mapDomain other ≠ I.mapDomain domain)
    (l : Option LastReply) (f : UInt64 → UInt64 → Option EntriesReply) (db : DB) (pos : UInt64) :
    getEntry I (sync I domain l f db).1 other pos = getEntry I db other pos := by
  unfold sync
  split
  · rfl
  · split
    · rfl
    · split
      · rfl
      · split
        · rfl
        · split
          · rfl
          · split
            · rfl
            · split
              · rfl
              · exact storeEntries_other I domain other hne _ pos _ _ db

/-- Non-vacuity: two domains, one entry each; deleting the first keeps the second. -/
example : let db : DB := { chains := [(1, ⟨lit "a", 0, lit "x"⟩), (2, ⟨lit "b", 0, lit "y"⟩)], pubs := [], privs := [], kis := [] }
    let I : Ids := ⟨fun d => d, fun _ => none⟩
    getEntry I (delChain I db (lit "a")) (lit "b") 0 = .ok (lit "y") := by
  intro db I
  rw [((C22_delete_chain I db (lit "a") (lit "b") 0).2 (by decide)).1]
  rfl

end Verif.Crypt

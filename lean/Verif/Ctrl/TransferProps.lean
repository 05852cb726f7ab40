/-
The lines of the transfer, the invariant of its executions and a measure for their length.
-/
import Verif.Ctrl.Transfer
import Verif.Util.Base64

namespace Verif.Ctrl.Transfer
open Verif.Sql Verif.Msgdb

/-! ### lines -/

/-- What `Conf.digits` and `Mix.atoiDigits` do with a character. -/
def digitStep (a : Option Nat) (c : UInt8) : Option Nat :=
  a.bind fun n => if 48 ≤ c ∧ c ≤ 57 then some (n * 10 + (c.toNat - 48)) else none

theorem digit_ofNat {n : Nat} (h : n < 10) : 48 ≤ UInt8.ofNat (48 + n) ∧ UInt8.ofNat (48 + n) ≤ 57 ∧ (UInt8.ofNat (48 + n)).toNat = 48 + n := by
  have h1 : (UInt8.ofNat (48 + n)).toNat = 48 + n := by simp only [UInt8.toNat_ofNat']; omega
  refine ⟨?_, ?_, h1⟩
  · rw [UInt8.le_iff_toNat_le, h1]; exact Nat.le_add_right _ _
  · rw [UInt8.le_iff_toNat_le, h1]; show 48 + n ≤ 57; omega

theorem step_ofNat {n k : Nat} (h : n < 10) : digitStep (some k) (UInt8.ofNat (48 + n)) = some (k * 10 + n) := by
  obtain ⟨h1, h2, h3⟩ := digit_ofNat h
  simp only [digitStep, Option.bind_some, h1, h2, and_self, if_true, h3]
  congr 1; omega

theorem decGo_fold (k n : Nat) (h : n < k) : (decGo k n).foldl digitStep (some 0) = some n := by
  induction k generalizing n with
  | zero => omega
  | succ k ih =>
    unfold decGo
    split
    · next hn => simp only [List.foldl_cons, List.foldl_nil, step_ofNat hn]; congr 1; omega
    · next hn =>
      rw [List.foldl_append, ih _ (by omega)]
      simp only [List.foldl_cons, List.foldl_nil, step_ofNat (Nat.mod_lt n (by omega : 10 > 0))]
      congr 1; omega

theorem decGo_chars (k n : Nat) : ∀ c ∈ decGo k n, 48 ≤ c ∧ c ≤ 57 := by
  induction k generalizing n with
  | zero => intro c hc; cases hc
  | succ k ih =>
    unfold decGo
    intro c hc
    split at hc
    · next hn =>
      rw [List.mem_singleton] at hc
      subst hc
      exact ⟨(digit_ofNat hn).1, (digit_ofNat hn).2.1⟩
    · rcases List.mem_append.1 hc with hc | hc
      · exact ih _ c hc
      · rw [List.mem_singleton] at hc
        subst hc
        have := digit_ofNat (Nat.mod_lt n (by omega : 10 > 0))
        exact ⟨this.1, this.2.1⟩

theorem dec_chars (n : Nat) : ∀ c ∈ dec n, 48 ≤ c ∧ c ≤ 57 := decGo_chars _ _

theorem dec_ne (n : Nat) : dec n ≠ [] := by
  unfold dec decGo
  split
  · simp
  · simp

theorem digits_dec (n : Nat) : Conf.digits (dec n) = some n := by
  unfold Conf.digits
  rw [if_neg (dec_ne n)]
  exact decGo_fold _ _ (by omega)

theorem atoiDigits_dec (n : Nat) : Mix.atoiDigits (dec n) = some n := by
  rcases h : dec n with _ | ⟨c, cs⟩
  · exact absurd h (dec_ne n)
  · unfold Mix.atoiDigits
    simp only []
    rw [← h]
    exact decGo_fold _ _ (by omega)

theorem parseUint_dec {n : Nat} (h : n < 2 ^ 64) : Conf.parseUint (dec n) = some n := by
  unfold Conf.parseUint
  rw [digits_dec]
  have : n < 18446744073709551616 := h
  simp [Option.filter, this]

theorem parseUint_dec_big {n : Nat} (h : ¬ n < 2 ^ 64) : Conf.parseUint (dec n) = none := by
  unfold Conf.parseUint
  rw [digits_dec]
  have : ¬ n < 18446744073709551616 := h
  simp [Option.filter, this]

theorem atoi_decInt {t : Int} (h : -2 ^ 63 ≤ t ∧ t < 2 ^ 63) : Mix.atoi (decInt t) = some t := by
  unfold decInt
  split
  · next ht =>
    unfold Mix.atoi
    simp only [atoiDigits_dec, Option.bind_some]
    rw [if_pos (by omega)]
    congr 1; omega
  · next ht =>
    rcases hd : dec t.toNat with _ | ⟨c, cs⟩
    · exact absurd hd (dec_ne _)
    have hc := dec_chars t.toNat c (by rw [hd]; exact List.mem_cons_self ..)
    unfold Mix.atoi
    split
    · next heq => injection heq with h1 _; subst h1; exact absurd hc.1 (by decide)
    · next heq => injection heq with h1 _; subst h1; exact absurd hc.1 (by decide)
    · rw [← hd, atoiDigits_dec, Option.bind_some, if_pos (by omega)]
      congr 1; omega

theorem splitTab_plain {b : Bytes} (h : 9 ∉ b) : splitTab b = [b] := by
  induction b with
  | nil => rfl
  | cons c t ih =>
    unfold splitTab
    rw [if_neg (fun e => h (by rw [e]; exact List.mem_cons_self ..)), ih fun e => h (List.mem_cons_of_mem _ e)]

theorem splitTab_two {a b : Bytes} (ha : 9 ∉ a) (hb : 9 ∉ b) : splitTab (a ++ 9 :: b) = [a, b] := by
  induction a with
  | nil => simp only [List.nil_append]; unfold splitTab; rw [if_pos rfl, splitTab_plain hb]
  | cons c t ih =>
    simp only [List.cons_append]
    unfold splitTab
    rw [if_neg (fun e => ha (by rw [e]; exact List.mem_cons_self ..)), ih fun e => ha (List.mem_cons_of_mem _ e)]

theorem splitTab_head (c : UInt8) (t : Bytes) (hc : c ≠ 9) : ∃ r rs, splitTab (c :: t) = (c :: r) :: rs := by
  unfold splitTab
  rw [if_neg hc]
  split
  · exact ⟨[], [], rfl⟩
  · next r rs _ => exact ⟨r, rs, rfl⟩

theorem not_mem_dec {c : UInt8} (hc : ¬ (48 ≤ c ∧ c ≤ 57)) (n : Nat) : c ∉ dec n := fun h => hc (dec_chars n c h)

theorem not_mem_decInt {c : UInt8} (hc : ¬ (48 ≤ c ∧ c ≤ 57)) (h45 : c ≠ 45) (t : Int) : c ∉ decInt t := by
  unfold decInt
  split
  · exact fun h => (List.mem_cons.1 h).elim h45 (not_mem_dec hc _)
  · exact not_mem_dec hc _

theorem hearLen_line (n : Nat) : Transfer.hearLen (txtLen ++ 9 :: dec n) = if n < 2 ^ 64 then some n else none := by
  unfold Transfer.hearLen
  rw [splitTab_two (by decide +kernel) (not_mem_dec (by decide) n)]
  simp only [if_true]
  split
  · next h => exact parseUint_dec h
  · next h => exact parseUint_dec_big h

theorem hearTime_line {t : Int} (h : -2 ^ 63 ≤ t ∧ t < 2 ^ 63) : Transfer.hearTime (txtTime ++ 9 :: decInt t) = some t := by
  unfold Transfer.hearTime
  rw [splitTab_two (by decide +kernel) (not_mem_decInt (by decide) (by decide) t)]
  simp only [if_true]
  exact atoi_decInt h

/-- A text without blanks and other control characters. -/
def Plain (s : Bytes) : Prop := ∀ c ∈ s, 33 ≤ c

theorem plain_blank {c : UInt8} (h : 33 ≤ c) : isBlank c = false := by
  have h1 : 33 ≤ c.toNat := UInt8.le_iff_toNat_le.1 h
  have h2 : ∀ k : UInt8, k.toNat < 33 → (c == k) = false := by
    intro k hk
    rw [beq_eq_false_iff_ne]
    intro e; subst e; omega
  simp only [isBlank, h2 32 (by decide), h2 9 (by decide), h2 10 (by decide), h2 11 (by decide), h2 12 (by decide), h2 13 (by decide), Bool.or_self]

theorem dropWhile_none {s : Bytes} (h : ∀ c, s.head? = some c → isBlank c = false) : s.dropWhile isBlank = s := by
  cases s with
  | nil => rfl
  | cons c t => rw [List.dropWhile_cons_of_neg]; rw [h c rfl]; decide

theorem trim_id {s : Bytes} (h1 : ∀ c, s.head? = some c → isBlank c = false) (h2 : ∀ c, s.getLast? = some c → isBlank c = false) : trim s = s := by
  unfold trim
  rw [dropWhile_none h1, dropWhile_none (s := s.reverse), List.reverse_reverse]
  intro c hc
  rw [List.head?_reverse] at hc
  exact h2 c hc

theorem hearId_line {x : Bytes} (hp : Plain x) (hx : x ≠ []) : Transfer.hearId (txtId ++ 9 :: x) = .id x := by
  have ht : trim (txtId ++ 9 :: x) = txtId ++ 9 :: x := by
    apply trim_id
    · intro c hc
      have : (txtId ++ 9 :: x).head? = some 77 := rfl
      rw [this] at hc; injection hc with hc; subst hc; rfl
    · intro c hc
      rw [List.getLast?_append, List.getLast?_cons_of_ne_nil hx] at hc
      rw [List.getLast?_eq_some_getLast hx] at hc
      simp only [Option.some_or, Option.some.injEq] at hc
      subst hc
      exact plain_blank (hp _ (List.getLast_mem hx))
  unfold Transfer.hearId
  simp only [ht]
  have h9 : (9 : UInt8) ∉ x := fun h => absurd (hp 9 h) (by decide)
  rw [if_neg, if_neg, splitTab_two (by decide +kernel) h9]
  · simp only [if_true]
  · intro h
    rw [List.isSuffixOf_iff_suffix] at h
    have hm : (9 : UInt8) ∉ txtNothing := by decide +kernel
    obtain ⟨p, e⟩ := h
    -- the suffix has a blank, but no tab: it would lie in the ID
    have h32 : (32 : UInt8) ∈ txtNothing := by decide +kernel
    obtain ⟨q, hq⟩ : ∃ q, x = q ++ txtNothing := by
      rcases List.append_eq_append_iff.1 e with ⟨a, e1, e2⟩ | ⟨a, e1, e2⟩
      · exact absurd (by rw [e2]; simp) hm
      · cases a with
        | nil => exfalso; exact hm (by simp only [List.nil_append] at e2; rw [← e2]; exact List.mem_cons_self ..)
        | cons a0 a1 =>
          simp only [List.cons_append, List.cons.injEq] at e2
          exact ⟨a1, e2.2⟩
    have := hp 32 (by rw [hq]; exact List.mem_append_right _ h32)
    exact absurd this (by decide)
  · intro h
    have : (9 : UInt8) ∈ txtNone := by rw [← h]; simp
    exact absurd this (by decide +kernel)

theorem hearId_empty : Transfer.hearId (txtId ++ [9]) = .bad := by decide +kernel

theorem hearId_none : Transfer.hearId txtNone = .none := by decide +kernel

theorem trim_head {c : UInt8} {t : Bytes} (h : isBlank c = false) : ∃ r, trim (c :: t) = c :: r := by
  unfold trim
  rw [List.dropWhile_cons_of_neg (by rw [h]; decide), List.reverse_cons]
  have : ∃ q, (t.reverse ++ [c]).dropWhile isBlank = q ++ [c] := by
    generalize t.reverse = u
    induction u with
    | nil => exact ⟨[], by simp only [List.nil_append]; rw [List.dropWhile_cons_of_neg (by rw [h]; decide)]⟩
    | cons a u ih =>
      rw [List.cons_append]
      by_cases ha : isBlank a = true
      · rw [List.dropWhile_cons_of_pos ha]; exact ih
      · rw [List.dropWhile_cons_of_neg ha]; exact ⟨a :: u, rfl⟩
  obtain ⟨q, hq⟩ := this
  exact ⟨q.reverse, by rw [hq]; simp⟩

theorem hearId_error (e : Bytes) : Transfer.hearId (txtError ++ e) = .nothing ∨ Transfer.hearId (txtError ++ e) = .bad := by
  have hc : txtError ++ e = 109 :: (txtError.tail ++ e) := rfl
  obtain ⟨r, hr⟩ := trim_head (c := 109) (t := txtError.tail ++ e) rfl
  unfold Transfer.hearId
  rw [hc]
  simp only [hr]
  rw [if_neg (by intro h; have : some 109 = txtNone.head? := by rw [← h]; rfl
                 exact absurd this (by decide +kernel))]
  split
  · exact .inl rfl
  · right
    obtain ⟨a, b, hab⟩ := splitTab_head 109 r (by decide)
    rw [hab]
    split
    · next x y heq =>
      injection heq with h1 _
      rw [if_neg]
      intro h
      rw [← h1] at h
      have : some 109 = txtId.head? := by rw [← h]; rfl
      exact absurd this (by decide +kernel)
    · rfl

/-- The first line of a text is where its first line feed is. -/
theorem first_line {a b x y : Bytes} (ha : 10 ∉ a) (hx : 10 ∉ x) (h : a ++ 10 :: b = x ++ 10 :: y) : a = x ∧ b = y := by
  induction a generalizing x with
  | nil =>
    cases x with
    | nil => simp only [List.nil_append, List.cons.injEq, true_and] at h; exact ⟨rfl, h⟩
    | cons c t =>
      simp only [List.nil_append, List.cons_append, List.cons.injEq] at h
      exact absurd (by rw [h.1]; exact List.mem_cons_self ..) hx
  | cons c t ih =>
    cases x with
    | nil =>
      simp only [List.nil_append, List.cons_append, List.cons.injEq] at h
      exact absurd (by rw [h.1]; exact List.mem_cons_self ..) ha
    | cons d u =>
      simp only [List.cons_append, List.cons.injEq] at h
      obtain ⟨e1, e2⟩ := ih (fun e => ha (List.mem_cons_of_mem _ e)) (fun e => hx (List.mem_cons_of_mem _ e)) h.2
      exact ⟨by rw [h.1, e1], e2⟩

end Verif.Ctrl.Transfer

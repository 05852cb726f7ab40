/-
encoding/json as the project uses it: the encoding of strings, integers,
booleans, arrays and objects by json.Marshal, and a decoder for that form.

Simplifications: strings are byte strings; json.Marshal replaces invalid UTF-8
and escapes U+2028 and U+2029, here bytes from 128 on stay as they are, so the
encoding is exact for ASCII strings. The decoder accepts the compact form with
the members in the order they are written, which is all json.Marshal produces.
-/
import Verif.Go

namespace Verif.Json

/-- The bytes of an ASCII literal. -/
def lit (s : String) : Bytes := s.toList.map fun c => UInt8.ofNat c.toNat

/-- A hexadecimal digit (encoding/json `hex`). -/
def hexDigit (n : UInt8) : UInt8 := if n < 10 then 48 + n else 87 + n

/-- One byte of a string as json.Marshal writes it (encoding/json encodeState.string
with HTML escaping): quote, backslash, line feed, carriage return and tab get a
backslash, other control characters and `<`, `>`, `&` become `\u00xx`. -/
def escByte (c : UInt8) : Bytes :=
  if c = 34 then [92, 34]
  else if c = 92 then [92, 92]
  else if c = 10 then [92, 110]
  else if c = 13 then [92, 114]
  else if c = 9 then [92, 116]
  else if c < 32 ∨ c = 60 ∨ c = 62 ∨ c = 38 then
    [92, 117, 48, 48, hexDigit (c / 16), hexDigit (c % 16)]
  else [c]

/-- The escaped bytes of a string. -/
def esc : Bytes → Bytes
  | [] => []
  | c :: s => escByte c ++ esc s

/-- A JSON string. -/
def jstr (s : Bytes) : Bytes := 34 :: (esc s ++ [34])

/-- The value of a hexadecimal digit. -/
def unhex (c : UInt8) : Option UInt8 :=
  if 48 ≤ c ∧ c < 58 then some (c - 48)
  else if 97 ≤ c ∧ c < 103 then some (c - 87)
  else if 65 ≤ c ∧ c < 71 then some (c - 55)
  else none

/-- The escape sequences of one letter. -/
def unescByte (c : UInt8) : Option UInt8 :=
  if c = 34 then some 34 else if c = 92 then some 92 else if c = 47 then some 47
  else if c = 110 then some 10 else if c = 114 then some 13 else if c = 116 then some 9
  else if c = 98 then some 8 else if c = 102 then some 12 else none

/-- A `\u` escape; only code points below 128 are accepted (simplification). -/
def unescHex (a b c d : UInt8) : Option UInt8 :=
  if a = 48 ∧ b = 48 then
    match unhex c, unhex d with
    | some x, some y => if x < 8 then some (x * 16 + y) else none
    | _, _ => none
  else none

/-- The rest of a string after its opening quote. -/
def unesc : Bytes → Option (Bytes × Bytes)
  | [] => none
  | [c] => if c = 34 then some ([], []) else none
  | c :: e :: r =>
    if c = 34 then some ([], e :: r)
    else if c = 92 then
      if e = 117 then
        match r with
        | h1 :: h2 :: h3 :: h4 :: r' =>
          match unescHex h1 h2 h3 h4 with
          | some x => (unesc r').map fun y => (x :: y.1, y.2)
          | none => none
        | _ => none
      else
        match unescByte e with
        | some x => (unesc r).map fun y => (x :: y.1, y.2)
        | none => none
    else if c < 32 then none
    else (unesc (e :: r)).map fun y => (c :: y.1, y.2)

/-- Read a JSON string. -/
def pstr : Bytes → Option (Bytes × Bytes)
  | [] => none
  | c :: r => if c = 34 then unesc r else none

/-- Decimal digits (strconv.AppendUint). -/
def jnat (n : Nat) : Bytes :=
  if h : n < 10 then [48 + UInt8.ofNat n] else jnat (n / 10) ++ [48 + UInt8.ofNat (n % 10)]
termination_by n

/-- A decimal digit. -/
def isDigit (c : UInt8) : Bool := 48 ≤ c && c ≤ 57

/-- The number of a digit string. -/
def ofDigits (ds : Bytes) : Nat := ds.foldl (fun a d => 10 * a + (d.toNat - 48)) 0

/-- Read a number. -/
def pnat (b : Bytes) : Option (Nat × Bytes) :=
  if b.takeWhile isDigit = [] then none
  else some (ofDigits (b.takeWhile isDigit), b.dropWhile isDigit)

/-- A boolean. -/
def jbool (b : Bool) : Bytes := if b then lit "true" else lit "false"

/-- Remove a literal. -/
def strip (l b : Bytes) : Option Bytes :=
  match l, b with
  | [], b => some b
  | x :: l, y :: b => if x = y then strip l b else none
  | _ :: _, [] => none

/-- Read a boolean. -/
def pbool (b : Bytes) : Option (Bool × Bytes) :=
  match strip (lit "true") b with
  | some r => some (true, r)
  | none => (strip (lit "false") b).map fun r => (false, r)

/-- The elements of an array after the first. -/
def jtail (f : α → Bytes) : List α → Bytes
  | [] => lit "]"
  | x :: xs => lit "," ++ (f x ++ jtail f xs)

/-- An array. -/
def jarr (f : α → Bytes) : List α → Bytes
  | [] => lit "[]"
  | x :: xs => lit "[" ++ (f x ++ jtail f xs)

/-- Read the elements of an array after the first. -/
def ptail (p : Bytes → Option (α × Bytes)) : Nat → Bytes → Option (List α × Bytes)
  | 0, _ => none
  | n + 1, b =>
    match strip (lit "]") b with
    | some r => some ([], r)
    | none =>
      (strip (lit ",") b).bind fun b =>
      (p b).bind fun x =>
      (ptail p n x.2).map fun y => (x.1 :: y.1, y.2)

/-- Read an array. -/
def parr (p : Bytes → Option (α × Bytes)) (b : Bytes) : Option (List α × Bytes) :=
  match strip (lit "[]") b with
  | some r => some ([], r)
  | none =>
    (strip (lit "[") b).bind fun b =>
    (p b).bind fun x =>
    (ptail p (b.length + 1) x.2).map fun y => (x.1 :: y.1, y.2)

/-- A pointer. -/
def jopt (f : α → Bytes) : Option α → Bytes
  | none => lit "null"
  | some x => f x

/-- Read a pointer. -/
def popt (p : Bytes → Option (α × Bytes)) (b : Bytes) : Option (Option α × Bytes) :=
  match strip (lit "null") b with
  | some r => some (none, r)
  | none => (p b).map fun x => (some x.1, x.2)

/-! ### Decoding undoes encoding -/

theorem strip_append (l r : Bytes) : strip l (l ++ r) = some r := by
  induction l with
  | nil => cases r <;> rfl
  | cons x l ih => simp only [List.cons_append, strip, if_true, ih]

/-- The hexadecimal case of `unesc`. -/
def unescU (r : Bytes) : Option (Bytes × Bytes) :=
  match r with
  | h1 :: h2 :: h3 :: h4 :: r' =>
    match unescHex h1 h2 h3 h4 with
    | some x => (unesc r').map fun y => (x :: y.1, y.2)
    | none => none
  | _ => none

theorem unesc_cons2 (c e : UInt8) (r : Bytes) : unesc (c :: e :: r) =
    if c = 34 then some ([], e :: r)
    else if c = 92 then
      if e = 117 then unescU r
      else
        match unescByte e with
        | some x => (unesc r).map fun y => (x :: y.1, y.2)
        | none => none
    else if c < 32 then none
    else (unesc (e :: r)).map fun y => (c :: y.1, y.2) := by
  rcases r with _ | ⟨a, _ | ⟨b, _ | ⟨d, _ | ⟨f, r⟩⟩⟩⟩ <;> (rw [unesc]; first | rfl | skip) <;> simp

theorem unesc_escByte : ∀ c : UInt8, ∀ r : Bytes, r ≠ [] →
    unesc (escByte c ++ r) = (unesc r).map fun y => (c :: y.1, y.2) := by
  intro c r hr
  unfold escByte
  split
  · rename_i h; subst h; rw [List.cons_append, List.cons_append, unesc_cons2]; simp [unescByte]
  · split
    · rename_i h; subst h; rw [List.cons_append, List.cons_append, unesc_cons2]; simp [unescByte]
    · split
      · rename_i h; subst h; rw [List.cons_append, List.cons_append, unesc_cons2]; simp [unescByte]
      · split
        · rename_i h; subst h; rw [List.cons_append, List.cons_append, unesc_cons2]; simp [unescByte]
        · split
          · rename_i h; subst h; rw [List.cons_append, List.cons_append, unesc_cons2]; simp [unescByte]
          · split
            · rename_i h
              have key : unescHex 48 48 (hexDigit (c / 16)) (hexDigit (c % 16)) = some c := by
                have : (List.range 64).all (fun n =>
                    unescHex 48 48 (hexDigit (UInt8.ofNat n / 16)) (hexDigit (UInt8.ofNat n % 16)) =
                      some (UInt8.ofNat n)) = true := by decide +kernel
                have hc : c.toNat < 64 := by
                  rcases h with h | h | h | h
                  · have := UInt8.lt_iff_toNat_lt.mp h
                    have e : (32 : UInt8).toNat = 32 := rfl
                    omega
                  all_goals subst h; decide
                have h2 := List.all_eq_true.mp this c.toNat (List.mem_range.mpr hc)
                rw [UInt8.ofNat_toNat] at h2
                exact of_decide_eq_true h2
              simp only [List.cons_append, List.nil_append]
              rw [unesc_cons2]
              simp [key, unescU]
            · rename_i h1 h2 _ _ _ h3
              cases r with
              | nil => exact absurd rfl hr
              | cons e r =>
                simp only [List.cons_append, List.nil_append]
                rw [unesc_cons2]
                have h4 : ¬ c < 32 := fun h => h3 (Or.inl h)
                simp [h1, h2, h4]

theorem unesc_esc (s r : Bytes) : unesc (esc s ++ 34 :: r) = some (s, r) := by
  induction s with
  | nil =>
    simp only [esc, List.nil_append]
    cases r with
    | nil => rfl
    | cons e r => rw [unesc_cons2]; simp
  | cons c s ih =>
    simp only [esc, List.append_assoc]
    rw [unesc_escByte _ _ (by simp), ih]
    rfl

theorem pstr_jstr (s r : Bytes) : pstr (jstr s ++ r) = some (s, r) := by
  simp only [jstr, List.cons_append, List.append_assoc, List.nil_append, pstr, if_true]
  exact unesc_esc s r

theorem digit_ok : ∀ n, n < 10 → isDigit (48 + UInt8.ofNat n) = true ∧
    (48 + UInt8.ofNat n).toNat - 48 = n := by
  intro n h
  have := List.all_eq_true.mp (show (List.range 10).all (fun n => isDigit (48 + UInt8.ofNat n) &&
    decide ((48 + UInt8.ofNat n).toNat - 48 = n)) = true by decide +kernel) n (List.mem_range.mpr h)
  simpa using this

theorem jnat_digits (n : Nat) : ∀ c ∈ jnat n, isDigit c = true := by
  induction n using jnat.induct with
  | case1 n h =>
    rw [jnat, dif_pos h]
    intro c hc
    rw [List.mem_singleton.mp hc]
    exact (digit_ok n h).1
  | case2 n h ih =>
    rw [jnat, dif_neg h]
    intro c hc
    rcases List.mem_append.mp hc with hc | hc
    · exact ih c hc
    · rw [List.mem_singleton.mp hc]
      exact (digit_ok _ (Nat.mod_lt _ (by omega))).1

theorem jnat_ne_nil (n : Nat) : jnat n ≠ [] := by
  rw [jnat]
  split <;> simp

theorem ofDigits_jnat (n : Nat) : ofDigits (jnat n) = n := by
  induction n using jnat.induct with
  | case1 n h =>
    rw [jnat, dif_pos h]
    simp only [ofDigits, List.foldl_cons, List.foldl_nil, Nat.mul_zero, Nat.zero_add]
    exact (digit_ok n h).2
  | case2 n h ih =>
    rw [jnat, dif_neg h]
    unfold ofDigits at *
    rw [List.foldl_append, ih]
    simp only [List.foldl_cons, List.foldl_nil]
    rw [(digit_ok _ (Nat.mod_lt n (by omega))).2]
    omega

theorem takeWhile_digits (ds r : Bytes) (hd : ∀ c ∈ ds, isDigit c = true)
    (hr : ∀ c, r.head? = some c → isDigit c = false) :
    (ds ++ r).takeWhile isDigit = ds ∧ (ds ++ r).dropWhile isDigit = r := by
  induction ds with
  | nil =>
    cases r with
    | nil => simp
    | cons c r =>
      have := hr c rfl
      simp [this]
  | cons d ds ih =>
    have h1 := hd d List.mem_cons_self
    obtain ⟨h2, h3⟩ := ih fun c hc => hd c (List.mem_cons_of_mem _ hc)
    simp [h1, h2, h3]

theorem pnat_jnat (n : Nat) (r : Bytes) (hr : ∀ c, r.head? = some c → isDigit c = false) :
    pnat (jnat n ++ r) = some (n, r) := by
  obtain ⟨h1, h2⟩ := takeWhile_digits (jnat n) r (jnat_digits n) hr
  unfold pnat
  rw [h1, h2, if_neg (jnat_ne_nil n), ofDigits_jnat]

theorem pbool_jbool (b : Bool) (r : Bytes) : pbool (jbool b ++ r) = some (b, r) := by
  cases b
  · have : strip (lit "true") (lit "false" ++ r) = none := rfl
    simp only [jbool, pbool, Bool.false_eq_true, if_false, this, strip_append, Option.map_some]
  · simp only [jbool, pbool, if_true, strip_append]

theorem jtail_length (f : α → Bytes) (xs : List α) : xs.length < (jtail f xs).length := by
  induction xs with
  | nil => simp [jtail, lit]
  | cons x xs ih =>
    have : (lit ",").length = 1 := by decide
    simp only [jtail, List.length_append, List.length_cons, this]
    omega

theorem ptail_jtail (f : α → Bytes) (p : Bytes → Option (α × Bytes)) (xs : List α) (r : Bytes)
    (h : ∀ x ∈ xs, ∀ r, p (f x ++ r) = some (x, r)) (n : Nat) (hn : xs.length < n) :
    ptail p n (jtail f xs ++ r) = some (xs, r) := by
  induction xs generalizing n with
  | nil =>
    cases n with
    | zero => omega
    | succ n => simp only [jtail, ptail, strip_append]
  | cons x xs ih =>
    cases n with
    | zero => omega
    | succ n =>
      have h0 : ∀ r, strip (lit "]") (lit "," ++ r) = none := fun r => rfl
      simp only [jtail, ptail, List.append_assoc, h0, strip_append, Option.bind_some]
      rw [h x List.mem_cons_self]
      simp only [Option.bind_some]
      rw [ih (fun y hy => h y (List.mem_cons_of_mem _ hy)) n (by simp at hn; omega)]
      rfl

theorem parr_jarr (f : α → Bytes) (p : Bytes → Option (α × Bytes)) (xs : List α) (r : Bytes)
    (h : ∀ x ∈ xs, ∀ r, p (f x ++ r) = some (x, r))
    (h0 : ∀ x ∈ xs, ∀ r, strip (lit "]") (f x ++ r) = none) :
    parr p (jarr f xs ++ r) = some (xs, r) := by
  cases xs with
  | nil => simp only [jarr, parr, strip_append]
  | cons x xs =>
    have hs : strip (lit "[]") (lit "[" ++ (f x ++ (jtail f xs ++ r))) = none :=
      h0 x List.mem_cons_self _
    simp only [jarr, parr, List.append_assoc, hs, strip_append, Option.bind_some]
    rw [h x List.mem_cons_self]
    simp only [Option.bind_some]
    rw [ptail_jtail f p xs r (fun y hy => h y (List.mem_cons_of_mem _ hy))]
    · rfl
    · have := jtail_length f xs
      simp only [List.length_append]
      omega

theorem popt_jopt (f : α → Bytes) (p : Bytes → Option (α × Bytes)) (x : Option α) (r : Bytes)
    (h : ∀ y, x = some y → ∀ r, p (f y ++ r) = some (y, r))
    (h0 : ∀ y, x = some y → ∀ r, strip (lit "null") (f y ++ r) = none) :
    popt p (jopt f x ++ r) = some (x, r) := by
  cases x with
  | none => simp only [jopt, popt, strip_append]
  | some x => simp only [jopt, popt, h0 x rfl, h x rfl, Option.map_some]

theorem strip_jstr (s r : Bytes) : strip (lit "]") (jstr s ++ r) = none := by
  simp [jstr, strip, lit]

/-! ### Lengths -/

/-- A character json.Marshal writes as it is. -/
def plainByte (c : UInt8) : Bool := 32 ≤ c && c ≠ 34 && c ≠ 92 && c ≠ 60 && c ≠ 62 && c ≠ 38

/-- A string json.Marshal writes as it is. -/
def Plain (s : Bytes) : Prop := ∀ c ∈ s, plainByte c = true

theorem escByte_plain {c : UInt8} (h : plainByte c = true) : escByte c = [c] := by
  unfold plainByte at h
  simp only [Bool.and_eq_true, decide_eq_true_eq] at h
  obtain ⟨⟨⟨⟨⟨h1, h2⟩, h3⟩, h4⟩, h5⟩, h6⟩ := h
  have g1 := UInt8.le_iff_toNat_le.mp h1
  have e : (32 : UInt8).toNat = 32 := rfl
  rw [e] at g1
  have g2 : c ≠ 10 := by rintro rfl; revert g1; decide
  have g3 : c ≠ 13 := by rintro rfl; revert g1; decide
  have g4 : c ≠ 9 := by rintro rfl; revert g1; decide
  have g5 : ¬ c < 32 := by
    intro h
    have := UInt8.lt_iff_toNat_lt.mp h
    rw [e] at this
    omega
  unfold escByte
  simp [g2, g3, g4, g5, h2, h3, h4, h5, h6]

theorem esc_plain {s : Bytes} (h : Plain s) : esc s = s := by
  induction s with
  | nil => rfl
  | cons c s ih =>
    rw [esc, escByte_plain (h c List.mem_cons_self), ih fun d hd => h d (List.mem_cons_of_mem _ hd)]
    rfl

theorem jstr_plain {s : Bytes} (h : Plain s) : jstr s = 34 :: (s ++ [34]) := by
  rw [jstr, esc_plain h]

theorem jstr_plain_length {s : Bytes} (h : Plain s) : (jstr s).length = s.length + 2 := by
  rw [jstr_plain h]; simp

theorem esc_append (a b : Bytes) : esc (a ++ b) = esc a ++ esc b := by
  induction a with
  | nil => rfl
  | cons c a ih => simp only [List.cons_append, esc, ih, List.append_assoc]

end Verif.Json

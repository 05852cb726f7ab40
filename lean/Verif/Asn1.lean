/-
encoding/asn1 of Go's standard library, as far as the mix packages use it: DER
encoding of structs with fields of type int32, int64, int, bool, []byte and string,
and the decoder with its checks (minimal lengths and integers, tags, truncation;
bytes after the last field of a SEQUENCE and after the SEQUENCE are ignored).

Simplified: tag numbers above 30 and string types other than PrintableString,
UTF8String are rejected (Go accepts some other string types).
-/
import Verif.Go

namespace Verif.Asn1

/-- Big endian base 256 digits without leading zeros; empty for zero. -/
def base256 (n : Nat) : Bytes :=
  if h : n = 0 then [] else base256 (n / 256) ++ [UInt8.ofNat (n % 256)]
termination_by n
decreasing_by omega

/-- The length octets (marshal.go: appendLength, appendTagAndLength). -/
def encLen (n : Nat) : Bytes :=
  if n < 128 then [UInt8.ofNat n]
  else UInt8.ofNat (128 + (base256 n).length) :: base256 n

/-- Tag, length and contents. -/
def tlv (tag : UInt8) (c : Bytes) : Bytes := tag :: (encLen c.length ++ c)

/-- The loop of parseTagAndLength over `k` length octets. -/
def readLong : Nat → Nat → Bytes → Option (Nat × Bytes)
  | 0, acc, bs => if acc < 128 then none else some (acc, bs)
  | _ + 1, _, [] => none
  | k + 1, acc, b :: bs =>
    if 2 ^ 23 ≤ acc then none
    else if acc * 256 + b.toNat = 0 then none
    else readLong k (acc * 256 + b.toNat) bs

/-- The length octets. -/
def readLen : Bytes → Option (Nat × Bytes)
  | [] => none
  | b :: bs =>
    if b < 128 then some (b.toNat, bs)
    else if b = 128 then none
    else readLong (b.toNat - 128) 0 bs

/-- Read one element with the given tag; contents and rest. -/
def readTLV (tag : UInt8) : Bytes → Option (Bytes × Bytes)
  | [] => none
  | t :: bs =>
    if t ≠ tag then none else
    match readLen bs with
    | none => none
    | some (n, rest) => if rest.length < n then none else some (rest.take n, rest.drop n)

theorem base256_ne_nil {n : Nat} (h : 0 < n) : base256 n ≠ [] := by
  rw [base256, dif_neg (by omega)]
  simp

theorem base256_length_le (n k : Nat) : (base256 n).length ≤ k ↔ n < 256 ^ k := by
  induction n using base256.induct generalizing k with
  | case1 =>
    rw [base256, dif_pos rfl]
    simp [Nat.pow_pos]
  | case2 n h ih =>
    rw [base256, dif_neg h]
    cases k with
    | zero => simp; omega
    | succ k =>
      simp only [List.length_append, List.length_singleton, Nat.add_le_add_iff_right, ih, Nat.pow_succ]
      omega

/-- Reading digits after `acc`. -/
theorem readLong_base256 (n : Nat) (k : Nat) (rest : Bytes) (hn : 0 < n ∨ base256 n = [])
    (ha : n < 2 ^ 31) :
    readLong (k + (base256 n).length) 0 (base256 n ++ rest) = readLong k n rest := by
  induction n using base256.induct generalizing k rest with
  | case1 => rw [base256, dif_pos rfl]; rfl
  | case2 n h ih =>
    rw [base256, dif_neg h]
    simp only [List.length_append, List.length_singleton, List.append_assoc, List.singleton_append]
    rw [show k + ((base256 (n / 256)).length + 1) = (k + 1) + (base256 (n / 256)).length by omega,
      ih (k + 1) (UInt8.ofNat (n % 256) :: rest) (by
        rcases Nat.eq_zero_or_pos (n / 256) with h0 | h0
        · exact .inr (by rw [h0, base256, dif_pos rfl])
        · exact .inl h0) (by omega)]
    rw [readLong]
    have e : (UInt8.ofNat (n % 256)).toNat = n % 256 := by
      simp
    rw [if_neg (by omega), e, if_neg (by omega), show n / 256 * 256 + n % 256 = n by omega]

theorem readLen_encLen (n : Nat) (hn : n < 2 ^ 31) (rest : Bytes) : readLen (encLen n ++ rest) = some (n, rest) := by
  unfold encLen
  split
  · rename_i h
    have e : (UInt8.ofNat n).toNat = n := by simp; omega
    show readLen (UInt8.ofNat n :: rest) = _
    rw [readLen, if_pos, e]
    rw [UInt8.lt_iff_toNat_lt, e]
    exact h
  · rename_i h
    have hl : (base256 n).length ≤ 4 := (base256_length_le n 4).mpr (by omega)
    have hp := List.length_pos_iff.mpr (base256_ne_nil (n := n) (by omega))
    have e : (UInt8.ofNat (128 + (base256 n).length)).toNat = 128 + (base256 n).length := by simp; omega
    rw [List.cons_append, readLen, if_neg, if_neg, e,
      show 128 + (base256 n).length - 128 = 0 + (base256 n).length by omega,
      readLong_base256 n 0 rest (.inl (by omega)) hn, readLong, if_neg h]
    · intro h'
      have := congrArg UInt8.toNat h'
      rw [e] at this
      have h128 : (128 : UInt8).toNat = 128 := rfl
      omega
    · rw [UInt8.lt_iff_toNat_lt, e]
      have h128 : (128 : UInt8).toNat = 128 := rfl
      omega

theorem readTLV_tlv (tag : UInt8) (c : Bytes) (hc : c.length < 2 ^ 31) (rest : Bytes) :
    readTLV tag (tlv tag c ++ rest) = some (c, rest) := by
  unfold tlv
  rw [List.cons_append, readTLV, if_neg (by simp), List.append_assoc, readLen_encLen _ hc]
  simp

/-! ### Integers -/

/-- The byte of a number modulo 256. -/
def lowByte (n : Int) : UInt8 := UInt8.ofNat (n % 256).toNat

/-- Minimal two's complement (marshal.go: int64Encoder). -/
def encInt (n : Int) : Bytes :=
  if h : -128 ≤ n ∧ n < 128 then [lowByte n] else encInt (n / 256) ++ [lowByte n]
termination_by n.natAbs
decreasing_by omega

/-- The value of the first byte. -/
def signed (b : UInt8) : Int := if b.toNat < 128 then b.toNat else (b.toNat : Int) - 256

/-- Value of the octets after the first ones. -/
def decFrom (acc : Int) : Bytes → Int
  | [] => acc
  | b :: bs => decFrom (acc * 256 + b.toNat) bs

/-- checkInteger and parseInt64 (asn1.go): not empty, minimal, at most eight octets. -/
def decInt : Bytes → Option Int
  | [] => none
  | [b] => some (signed b)
  | b0 :: b1 :: bs =>
    if (b0 = 0 ∧ b1 < 128) ∨ (b0 = 255 ∧ 128 ≤ b1) then none
    else if 8 < (b0 :: b1 :: bs).length then none
    else some (decFrom (signed b0) (b1 :: bs))

theorem lowByte_toNat (n : Int) : ((lowByte n).toNat : Int) = n % 256 := by
  unfold lowByte
  have h1 := Int.emod_nonneg n (b := 256) (by omega)
  have h2 := Int.emod_lt_of_pos n (b := 256) (by omega)
  have h3 : (UInt8.ofNat (n % 256).toNat).toNat = (n % 256).toNat := by simp; omega
  rw [h3]
  omega

theorem signed_lowByte {n : Int} (h : -128 ≤ n ∧ n < 128) : signed (lowByte n) = n := by
  have := lowByte_toNat n
  unfold signed
  split <;> omega

theorem decFrom_append (acc : Int) (a b : Bytes) : decFrom acc (a ++ b) = decFrom (decFrom acc a) b := by
  induction a generalizing acc with
  | nil => rfl
  | cons x a ih => exact ih _

theorem encInt_ne_nil (n : Int) : encInt n ≠ [] := by
  rw [encInt]; split <;> simp

/-- The value of an encoding. -/
theorem encInt_value (n : Int) : ∃ b bs, encInt n = b :: bs ∧ decFrom (signed b) bs = n := by
  induction n using encInt.induct with
  | case1 n h =>
    rw [encInt, dif_pos h]
    exact ⟨_, [], rfl, signed_lowByte h⟩
  | case2 n h ih =>
    obtain ⟨b, bs, h1, h2⟩ := ih
    rw [encInt, dif_neg h, h1]
    refine ⟨b, bs ++ [lowByte n], rfl, ?_⟩
    rw [decFrom_append, h2]
    show n / 256 * 256 + ((lowByte n).toNat : Int) = n
    rw [lowByte_toNat]
    omega

/-- The encoding is minimal. -/
theorem encInt_minimal (n : Int) : ∀ b0 b1 bs, encInt n = b0 :: b1 :: bs →
    ¬ ((b0 = 0 ∧ b1 < 128) ∨ (b0 = 255 ∧ 128 ≤ b1)) := by
  induction n using encInt.induct with
  | case1 n h =>
    intro b0 b1 bs he
    rw [encInt, dif_pos h] at he
    cases he
  | case2 n h ih =>
    intro b0 b1 bs he
    rw [encInt, dif_neg h] at he
    obtain ⟨c, cs, h1, h2⟩ := encInt_value (n / 256)
    rw [h1] at he
    cases cs with
    | nil =>
      simp only [List.cons_append, List.nil_append, List.cons.injEq] at he
      obtain ⟨rfl, rfl, -⟩ := he
      have h2 : signed c = n / 256 := h2
      have hb := lowByte_toNat n
      unfold signed at h2
      have hlt := c.toNat_lt
      rintro (⟨rfl, h3⟩ | ⟨rfl, h3⟩)
      · rw [UInt8.lt_iff_toNat_lt] at h3
        have e0 : (0 : UInt8).toNat = 0 := rfl
        have e1 : (128 : UInt8).toNat = 128 := rfl
        rw [e0] at h2
        simp at h2
        omega
      · rw [UInt8.le_iff_toNat_le] at h3
        have e0 : (255 : UInt8).toNat = 255 := rfl
        have e1 : (128 : UInt8).toNat = 128 := rfl
        rw [e0] at h2
        simp at h2
        omega
    | cons d ds =>
      simp only [List.cons_append, List.cons.injEq] at he
      obtain ⟨rfl, rfl, -⟩ := he
      exact ih _ _ _ h1

theorem encInt_length (k : Nat) (n : Int) (hk : 0 < k) (h : -(128 * 256 ^ (k - 1)) ≤ n ∧ n < 128 * 256 ^ (k - 1)) :
    (encInt n).length ≤ k := by
  induction k generalizing n with
  | zero => omega
  | succ k ih =>
    rw [encInt]
    split
    · simp
    · rename_i hr
      cases k with
      | zero => simp at h; omega
      | succ k =>
        simp only [List.length_append, List.length_singleton]
        have e : (256 : Int) ^ (k + 1) = 256 ^ k * 256 := Int.pow_succ 256 k
        simp only [Nat.add_sub_cancel] at h ih
        rw [e] at h
        have := ih (n / 256) (by omega) (by omega)
        omega

theorem decInt_encInt (n : Int) (h : -2 ^ 63 ≤ n ∧ n < 2 ^ 63) : decInt (encInt n) = some n := by
  obtain ⟨b, bs, h1, h2⟩ := encInt_value n
  have hl := encInt_length 8 n (by omega) (by omega)
  have hm := encInt_minimal n
  rw [h1] at hl hm ⊢
  cases bs with
  | nil => exact congrArg some h2
  | cons c cs =>
    rw [decInt, if_neg (hm b c cs rfl), if_neg (by omega), h2]

/-! ### Fields -/

/-- A field of type int64 or int. -/
def eInt (n : Int) : Bytes := tlv 2 (encInt n)
def fInt64 (b : Bytes) : Option (Int × Bytes) :=
  (readTLV 2 b).bind fun r => (decInt r.1).map fun n => (n, r.2)

/-- parseInt32: values outside the range are refused. -/
def fInt32 (b : Bytes) : Option (Int × Bytes) :=
  (fInt64 b).bind fun r => if -2 ^ 31 ≤ r.1 ∧ r.1 < 2 ^ 31 then some r else none

/-- A field of type bool. -/
def eBool (x : Bool) : Bytes := tlv 1 [if x then 255 else 0]
def fBool (b : Bytes) : Option (Bool × Bytes) :=
  (readTLV 1 b).bind fun r => match r.1 with
    | [x] => if x = 0 then some (false, r.2) else if x = 255 then some (true, r.2) else none
    | _ => none

/-- A field of type []byte. -/
def eBytes (x : Bytes) : Bytes := tlv 4 x
def fBytes (b : Bytes) : Option (Bytes × Bytes) := readTLV 4 b

/-- isPrintable (asn1.go), without '*' and '&'. -/
def printable (b : UInt8) : Bool :=
  (97 ≤ b && b ≤ 122) || (65 ≤ b && b ≤ 90) || (48 ≤ b && b ≤ 57) || (39 ≤ b && b ≤ 41) ||
  (43 ≤ b && b ≤ 47) || b == 32 || b == 58 || b == 61 || b == 63

/-- A field of type string: PrintableString if possible, UTF8String otherwise; a
string that is no UTF-8 cannot be marshalled. `utf8` is utf8.Valid. -/
def eStr (utf8 : Bytes → Bool) (s : Bytes) : Option Bytes :=
  if s.all printable then some (tlv 19 s)
  else if utf8 s then some (tlv 12 s) else none
def fStr (utf8 : Bytes → Bool) (b : Bytes) : Option (Bytes × Bytes) :=
  match readTLV 19 b with
  | some (s, r) => if s.all (fun c => printable c || c == 42 || c == 38) then some (s, r) else none
  | none => match readTLV 12 b with
    | some (s, r) => if utf8 s then some (s, r) else none
    | none => none

theorem fInt64_eInt (n : Int) (h : -2 ^ 63 ≤ n ∧ n < 2 ^ 63) (r : Bytes) : fInt64 (eInt n ++ r) = some (n, r) := by
  have hl := encInt_length 8 n (by omega) (by omega)
  unfold fInt64 eInt
  rw [readTLV_tlv _ _ (by omega), Option.bind_some, decInt_encInt n h]
  rfl

theorem fInt32_eInt (n : Int) (h : -2 ^ 31 ≤ n ∧ n < 2 ^ 31) (r : Bytes) : fInt32 (eInt n ++ r) = some (n, r) := by
  unfold fInt32
  rw [fInt64_eInt n (by omega), Option.bind_some, if_pos h]

theorem fBool_eBool (x : Bool) (r : Bytes) : fBool (eBool x ++ r) = some (x, r) := by
  unfold fBool eBool
  rw [readTLV_tlv _ _ (by simp)]
  cases x <;> rfl

theorem fBytes_eBytes (x : Bytes) (h : x.length < 2 ^ 31) (r : Bytes) : fBytes (eBytes x ++ r) = some (x, r) :=
  readTLV_tlv _ _ h _

theorem readTLV_other {t u : UInt8} (h : t ≠ u) (c r : Bytes) : readTLV t (tlv u c ++ r) = none := by
  unfold tlv
  rw [List.cons_append, readTLV, if_pos (Ne.symm h)]

theorem fStr_eStr (utf8 : Bytes → Bool) (s e : Bytes) (h : eStr utf8 s = some e) (hl : s.length < 2 ^ 31) (r : Bytes) :
    fStr utf8 (e ++ r) = some (s, r) := by
  unfold eStr at h
  split at h
  · rename_i hp
    cases h
    unfold fStr
    rw [readTLV_tlv _ _ hl]
    simp only
    rw [if_pos]
    rw [List.all_eq_true] at hp ⊢
    intro c hc
    simp [hp c hc]
  · split at h
    · rename_i hu
      cases h
      unfold fStr
      rw [readTLV_other (by decide), readTLV_tlv _ _ hl]
      simp only [hu, if_true]
    · cases h

theorem encLen_length (n : Nat) (h : n < 2 ^ 31) : (encLen n).length ≤ 5 := by
  unfold encLen
  split
  · simp
  · have := (base256_length_le n 4).mpr (by omega)
    simp only [List.length_cons]
    omega

theorem tlv_length (t : UInt8) (c : Bytes) (h : c.length < 2 ^ 31) :
    (tlv t c).length ≤ c.length + 6 ∧ c.length + 2 ≤ (tlv t c).length := by
  have := encLen_length c.length h
  have h2 : 1 ≤ (encLen c.length).length := by unfold encLen; split <;> simp
  unfold tlv
  simp only [List.length_cons, List.length_append]
  omega

end Verif.Asn1

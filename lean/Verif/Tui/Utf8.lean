/-
UTF-8 as in Go's package unicode/utf8: `DecodeRune` and `EncodeRune`.
-/
import Verif.Go

namespace Verif.Tui

/-- A continuation byte within the given bounds. -/
def contIn (lo hi : Nat) (b : UInt8) : Bool := decide (lo ≤ b.toNat) && decide (b.toNat ≤ hi)

/-- The six low bits of a continuation byte. -/
def low (b : UInt8) : Nat := b.toNat % 64

/-- The bounds for the second byte that depend on the first one (`acceptRanges` in unicode/utf8). -/
def second (b : Nat) : Nat × Nat :=
  if b = 0xE0 then (0xA0, 0xBF) else if b = 0xED then (0x80, 0x9F) else if b = 0xF0 then (0x90, 0xBF) else if b = 0xF4 then (0x80, 0x8F) else (0x80, 0xBF)

/-- `utf8.RuneError`. -/
def runeError : Nat := 0xFFFD

/-- `utf8.DecodeRune`: the rune and the number of bytes. -/
def decodeRune : Bytes → Nat × Nat
  | [] => (runeError, 0)
  | b :: t =>
    let n := b.toNat
    if n < 0x80 then (n, 1)
    else if n < 0xC2 then (runeError, 1)
    else if n < 0xE0 then
      match t with
      | c :: _ => if contIn 0x80 0xBF c then (n % 32 * 64 + low c, 2) else (runeError, 1)
      | _ => (runeError, 1)
    else if n < 0xF0 then
      match t with
      | c :: d :: _ => if contIn (second n).1 (second n).2 c && contIn 0x80 0xBF d then (n % 16 * 4096 + low c * 64 + low d, 3) else (runeError, 1)
      | _ => (runeError, 1)
    else if n < 0xF5 then
      match t with
      | c :: d :: e :: _ =>
        if contIn (second n).1 (second n).2 c && contIn 0x80 0xBF d && contIn 0x80 0xBF e then (n % 8 * 262144 + low c * 4096 + low d * 64 + low e, 4) else (runeError, 1)
      | _ => (runeError, 1)
    else (runeError, 1)

/-- The runes that have an encoding. -/
def ValidRune (r : Nat) : Prop := r < 0xD800 ∨ (0xDFFF < r ∧ r ≤ 0x10FFFF)

instance (r : Nat) : Decidable (ValidRune r) := by unfold ValidRune; infer_instance

/-- The encoding of a valid rune. -/
def encodeValid (r : Nat) : Bytes :=
  if r < 0x80 then [UInt8.ofNat r]
  else if r < 0x800 then [UInt8.ofNat (0xC0 + r / 64), UInt8.ofNat (0x80 + r % 64)]
  else if r < 0x10000 then [UInt8.ofNat (0xE0 + r / 4096), UInt8.ofNat (0x80 + r / 64 % 64), UInt8.ofNat (0x80 + r % 64)]
  else [UInt8.ofNat (0xF0 + r / 262144), UInt8.ofNat (0x80 + r / 4096 % 64), UInt8.ofNat (0x80 + r / 64 % 64), UInt8.ofNat (0x80 + r % 64)]

/-- `utf8.EncodeRune`: other values are written as the replacement character. -/
def encodeRune (r : Nat) : Bytes := if ValidRune r then encodeValid r else encodeValid runeError

theorem toNat_ofNat {n : Nat} (h : n < 256) : (UInt8.ofNat n).toNat = n := by
  simp [UInt8.toNat_ofNat, Nat.mod_eq_of_lt h]

theorem cont_in {n : Nat} : contIn 0x80 0xBF (UInt8.ofNat (0x80 + n % 64)) = true := by
  unfold contIn
  rw [toNat_ofNat (by omega)]
  simp
  omega

theorem low_cont {n : Nat} : low (UInt8.ofNat (0x80 + n % 64)) = n % 64 := by
  unfold low
  rw [toNat_ofNat (by omega)]
  omega

theorem decode_encode {r : Nat} (h : ValidRune r) (t : Bytes) : decodeRune (encodeRune r ++ t) = (r, (encodeRune r).length) := by
  unfold encodeRune
  rw [if_pos h]
  unfold encodeValid
  unfold ValidRune at h
  by_cases h1 : r < 0x80
  · simp only [if_pos h1, List.cons_append, List.nil_append, decodeRune, toNat_ofNat (show r < 256 by omega), List.length_cons, List.length_nil, Nat.zero_add]
  by_cases h2 : r < 0x800
  · have e : 0xC0 + r / 64 < 256 := by omega
    simp only [if_neg h1, if_pos h2, List.cons_append, List.nil_append, decodeRune, toNat_ofNat e, cont_in, low_cont, List.length_cons, List.length_nil]
    rw [if_neg (by omega), if_neg (by omega), if_pos (by omega), if_pos trivial]
    simp only [Prod.mk.injEq, and_true]
    omega
  by_cases h3 : r < 0x10000
  · have e : 0xE0 + r / 4096 < 256 := by omega
    have hs : contIn (second (0xE0 + r / 4096)).1 (second (0xE0 + r / 4096)).2 (UInt8.ofNat (0x80 + r / 64 % 64)) = true := by
      unfold contIn
      rw [toNat_ofNat (by omega)]
      unfold second
      simp only [Bool.and_eq_true, decide_eq_true_eq]
      split
      · omega
      split
      · omega
      split
      · omega
      split <;> omega
    simp only [if_neg h1, if_neg h2, if_pos h3, List.cons_append, List.nil_append, decodeRune, toNat_ofNat e, cont_in, low_cont, List.length_cons, List.length_nil, hs]
    rw [if_neg (by omega), if_neg (by omega), if_neg (by omega), if_pos (by omega), if_pos (by decide)]
    simp only [Prod.mk.injEq, and_true]
    omega
  · have e : 0xF0 + r / 262144 < 256 := by omega
    have hs : contIn (second (0xF0 + r / 262144)).1 (second (0xF0 + r / 262144)).2 (UInt8.ofNat (0x80 + r / 4096 % 64)) = true := by
      unfold contIn
      rw [toNat_ofNat (by omega)]
      unfold second
      simp only [Bool.and_eq_true, decide_eq_true_eq]
      split
      · omega
      split
      · omega
      split
      · omega
      split <;> omega
    simp only [if_neg h1, if_neg h2, if_neg h3, List.cons_append, List.nil_append, decodeRune, toNat_ofNat e, cont_in, low_cont, List.length_cons, List.length_nil, hs]
    rw [if_neg (by omega), if_neg (by omega), if_neg (by omega), if_neg (by omega), if_pos (by omega), if_pos (by decide)]
    simp only [Prod.mk.injEq, and_true]
    omega

theorem decodeRune_pos {b : UInt8} {t : Bytes} : 0 < (decodeRune (b :: t)).2 := by
  unfold decodeRune
  simp only
  repeat' split
  all_goals simp

theorem encodeRune_ne_nil (r : Nat) : encodeRune r ≠ [] := by
  unfold encodeRune encodeValid
  repeat' split
  all_goals simp

/-- No byte of the encoding of another rune is a newline. -/
theorem encodeRune_no_newline {r : Nat} (h : ValidRune r) (hr : r ≠ 10) : (10 : UInt8) ∉ encodeRune r := by
  have key : ∀ n, n < 256 → n ≠ 10 → (10 : UInt8) ≠ UInt8.ofNat n := by
    intro n hn hne e
    have := congrArg UInt8.toNat e
    rw [toNat_ofNat hn] at this
    exact hne this.symm
  unfold encodeRune
  rw [if_pos h]
  unfold encodeValid
  unfold ValidRune at h
  split
  · simp only [List.mem_cons, List.not_mem_nil, or_false]
    exact key _ (by omega) hr
  split
  · simp only [List.mem_cons, List.not_mem_nil, or_false, not_or]
    exact ⟨key _ (by omega) (by omega), key _ (by omega) (by omega)⟩
  split
  · simp only [List.mem_cons, List.not_mem_nil, or_false, not_or]
    exact ⟨key _ (by omega) (by omega), key _ (by omega) (by omega), key _ (by omega) (by omega)⟩
  · simp only [List.mem_cons, List.not_mem_nil, or_false, not_or]
    exact ⟨key _ (by omega) (by omega), key _ (by omega) (by omega), key _ (by omega) (by omega), key _ (by omega) (by omega)⟩

end Verif.Tui

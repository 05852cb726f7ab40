/-
encode/base64/base64.go: the standard base64 encoding with padding. The Go
package delegates to encoding/base64.StdEncoding; this file gives that codec
as total functions on byte strings, because the hash chain, MIME and mail code
of the repository depend on how it treats line breaks and lengths.
-/
import Verif.Go

namespace Verif.Base64

/-- The alphabet `A-Z a-z 0-9 + /` of encoding/base64.StdEncoding
(encode/base64/base64.go:14). -/
def enc6 (n : Nat) : UInt8 :=
  if n < 26 then UInt8.ofNat (65 + n)
  else if n < 52 then UInt8.ofNat (97 + (n - 26))
  else if n < 62 then UInt8.ofNat (48 + (n - 52))
  else if n = 62 then 43 else 47

/-- Inverse of the alphabet; `none` for every other byte. -/
def dec6 (c : UInt8) : Option Nat :=
  let n := c.toNat
  if 65 ≤ n ∧ n < 91 then some (n - 65)
  else if 97 ≤ n ∧ n < 123 then some (n - 97 + 26)
  else if 48 ≤ n ∧ n < 58 then some (n - 48 + 52)
  else if n = 43 then some 62
  else if n = 47 then some 63
  else none

/-- The padding character `=`. -/
def pad : UInt8 := 61

/-- `Encode` (encode/base64/base64.go:22-24). -/
def encode : Bytes → Bytes
  | [] => []
  | [x] => [enc6 (x.toNat / 4), enc6 (x.toNat % 4 * 16), pad, pad]
  | [x, y] => [enc6 (x.toNat / 4), enc6 (x.toNat % 4 * 16 + y.toNat / 16),
      enc6 (y.toNat % 16 * 4), pad]
  | x :: y :: z :: rest =>
      enc6 (x.toNat / 4) :: enc6 (x.toNat % 4 * 16 + y.toNat / 16) ::
      enc6 (y.toNat % 16 * 4 + z.toNat / 64) :: enc6 (z.toNat % 64) :: encode rest

/-- Decoding of quantums, after line breaks were dropped. `StdEncoding` is not
strict: the unused low bits before padding are ignored. -/
def decodeQ : Bytes → Option Bytes
  | [] => some []
  | a :: b :: c :: d :: rest =>
    (dec6 a).bind fun a => (dec6 b).bind fun b =>
      if d = pad then
        if rest ≠ [] then none
        else if c = pad then some [UInt8.ofNat (a * 4 + b / 16)]
        else (dec6 c).bind fun c =>
          some [UInt8.ofNat (a * 4 + b / 16), UInt8.ofNat (b % 16 * 16 + c / 4)]
      else
        (dec6 c).bind fun c => (dec6 d).bind fun d => (decodeQ rest).bind fun r =>
          some (UInt8.ofNat (a * 4 + b / 16) :: UInt8.ofNat (b % 16 * 16 + c / 4) ::
            UInt8.ofNat (c % 4 * 64 + d) :: r)
  | _ => none

/-- Line breaks, which the decoder skips wherever they occur. -/
def isBreak (c : UInt8) : Bool := c == 10 || c == 13

/-- `Decode` (encode/base64/base64.go:17-19). `none` stands for the error. -/
def decode (s : Bytes) : Option Bytes := decodeQ (s.filter fun c => !isBreak c)

theorem dec6_enc6 : ∀ n, n < 64 → dec6 (enc6 n) = some n := by decide

theorem enc6_ne_pad : ∀ n, n < 64 → enc6 n ≠ pad := by decide

theorem enc6_noBreak : ∀ n, n < 64 → isBreak (enc6 n) = false := by decide

theorem pad_noBreak : isBreak pad = false := rfl

theorem encode_length (b : Bytes) : (encode b).length = (b.length + 2) / 3 * 4 := by
  induction b using encode.induct with
  | case1 => rfl
  | case2 => simp [encode]
  | case3 => simp [encode]
  | case4 x y z rest ih => simp [encode, ih]; omega

/-- Encoded text never contains a line break. -/
theorem encode_noBreak (b : Bytes) : ∀ c ∈ encode b, isBreak c = false := by
  induction b using encode.induct with
  | case1 => simp [encode]
  | case2 x =>
    have := x.toNat_lt
    simp only [encode, List.mem_cons, List.not_mem_nil, or_false, forall_eq_or_imp, forall_eq]
    exact ⟨enc6_noBreak _ (by omega), enc6_noBreak _ (by omega), rfl, rfl⟩
  | case3 x y =>
    have := x.toNat_lt
    have := y.toNat_lt
    simp only [encode, List.mem_cons, List.not_mem_nil, or_false, forall_eq_or_imp, forall_eq]
    exact ⟨enc6_noBreak _ (by omega), enc6_noBreak _ (by omega), enc6_noBreak _ (by omega), rfl⟩
  | case4 x y z rest ih =>
    have := x.toNat_lt
    have := y.toNat_lt
    have := z.toNat_lt
    simp only [encode, List.mem_cons, forall_eq_or_imp]
    exact ⟨enc6_noBreak _ (by omega), enc6_noBreak _ (by omega), enc6_noBreak _ (by omega),
      enc6_noBreak _ (by omega), ih⟩

theorem ofNat_eq {x : UInt8} {n : Nat} (h : n = x.toNat) : UInt8.ofNat n = x := by
  subst h; exact UInt8.ofNat_toNat

theorem decodeQ_encode (b : Bytes) : decodeQ (encode b) = some b := by
  induction b using encode.induct with
  | case1 => rfl
  | case2 x =>
    have := x.toNat_lt
    simp only [encode, decodeQ, dec6_enc6 _ (show x.toNat / 4 < 64 by omega),
      dec6_enc6 _ (show x.toNat % 4 * 16 < 64 by omega), Option.bind_some, if_true, ne_eq,
      not_true_eq_false, if_false, Option.some.injEq, List.cons.injEq, and_true]
    exact ofNat_eq (by omega)
  | case3 x y =>
    have := x.toNat_lt
    have := y.toNat_lt
    simp only [encode, decodeQ, dec6_enc6 _ (show x.toNat / 4 < 64 by omega),
      dec6_enc6 _ (show x.toNat % 4 * 16 + y.toNat / 16 < 64 by omega),
      dec6_enc6 _ (show y.toNat % 16 * 4 < 64 by omega),
      enc6_ne_pad _ (show y.toNat % 16 * 4 < 64 by omega), Option.bind_some, if_true, ne_eq,
      not_true_eq_false, if_false, Option.some.injEq, List.cons.injEq, and_true]
    exact ⟨ofNat_eq (by omega), ofNat_eq (by omega)⟩
  | case4 x y z rest ih =>
    have := x.toNat_lt
    have := y.toNat_lt
    have := z.toNat_lt
    simp only [encode, decodeQ, dec6_enc6 _ (show x.toNat / 4 < 64 by omega),
      dec6_enc6 _ (show x.toNat % 4 * 16 + y.toNat / 16 < 64 by omega),
      dec6_enc6 _ (show y.toNat % 16 * 4 + z.toNat / 64 < 64 by omega),
      dec6_enc6 _ (show z.toNat % 64 < 64 by omega),
      enc6_ne_pad _ (show z.toNat % 64 < 64 by omega), Option.bind_some, if_false, ih,
      Option.some.injEq, List.cons.injEq, and_true]
    exact ⟨ofNat_eq (by omega), ofNat_eq (by omega), ofNat_eq (by omega)⟩

theorem filter_noBreak {s : Bytes} (h : ∀ c ∈ s, isBreak c = false) :
    s.filter (fun c => !isBreak c) = s :=
  List.filter_eq_self.mpr fun c hc => by simp [h c hc]

/-- Decoding is a left inverse of encoding. -/
theorem decode_encode (b : Bytes) : decode (encode b) = some b := by
  unfold decode
  rw [filter_noBreak (encode_noBreak b), decodeQ_encode]

/-- The decoder does not see line breaks. -/
theorem decode_of_filter {s b : Bytes} (h : s.filter (fun c => !isBreak c) = encode b) :
    decode s = some b := by
  unfold decode; rw [h, decodeQ_encode]

theorem encode_injective {a b : Bytes} (h : encode a = encode b) : a = b := by
  have := decode_encode a
  rw [h, decode_encode] at this
  exact (Option.some.inj this).symm

end Verif.Base64

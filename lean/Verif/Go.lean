/-
Shared vocabulary for the models: results of Go functions, byte strings and
big-endian integers as written by encoding/binary.
-/
namespace Verif

/-- A Go `[]byte` (or the bytes of a Go string). Aliasing is not modelled. -/
abbrev Bytes := List UInt8

/-- Outcome of a Go call: a value, a returned `error`, or a run-time panic. -/
inductive Res (ε α : Type) where
  | ok (a : α)
  | err (e : ε)
  | panic
  deriving DecidableEq, Repr

namespace Res
variable {ε α β : Type}

def bind : Res ε α → (α → Res ε β) → Res ε β
  | ok a, f => f a
  | err e, _ => err e
  | panic, _ => panic

instance : Monad (Res ε) where
  pure := ok
  bind := bind

@[simp] theorem pure_eq (a : α) : (pure a : Res ε α) = ok a := rfl
@[simp] theorem bind_ok (a : α) (f : α → Res ε β) : (ok a >>= f) = f a := rfl
@[simp] theorem bind_err (e : ε) (f : α → Res ε β) : (err e >>= f) = err e := rfl
@[simp] theorem bind_panic (f : α → Res ε β) : ((panic : Res ε α) >>= f) = panic := rfl

/-- Success of a monadic sequence splits into success of its parts. -/
theorem bind_eq_ok {x : Res ε α} {f : α → Res ε β} {b : β} :
    (x >>= f) = ok b ↔ ∃ a, x = ok a ∧ f a = ok b := by
  cases x <;> simp

def isOk : Res ε α → Bool
  | ok _ => true
  | _ => false

end Res

/-- `binary.Write(w, binary.BigEndian, uint16)`; shifts written as arithmetic. -/
def be16 (u : UInt16) : Bytes :=
  [UInt8.ofNat (u.toNat / 256), UInt8.ofNat u.toNat]

/-- `binary.Write(w, binary.BigEndian, uint32)`. -/
def be32 (u : UInt32) : Bytes :=
  [UInt8.ofNat (u.toNat / 16777216), UInt8.ofNat (u.toNat / 65536),
   UInt8.ofNat (u.toNat / 256), UInt8.ofNat u.toNat]

/-- Decoding side of `binary.Read` for `uint16`. -/
def fromBe16 (a b : UInt8) : UInt16 := UInt16.ofNat (a.toNat * 256 + b.toNat)

/-- Decoding side of `binary.Read` for `uint32`. -/
def fromBe32 (a b c d : UInt8) : UInt32 :=
  UInt32.ofNat (((a.toNat * 256 + b.toNat) * 256 + c.toNat) * 256 + d.toNat)

theorem fromBe16_be16 (u : UInt16) :
    fromBe16 (UInt8.ofNat (u.toNat / 256)) (UInt8.ofNat u.toNat) = u := by
  have := u.toNat_lt
  apply UInt16.toNat_inj.mp
  simp only [fromBe16, UInt16.toNat_ofNat', UInt8.toNat_ofNat']
  omega

theorem fromBe32_be32 (u : UInt32) :
    fromBe32 (UInt8.ofNat (u.toNat / 16777216)) (UInt8.ofNat (u.toNat / 65536))
      (UInt8.ofNat (u.toNat / 256)) (UInt8.ofNat u.toNat) = u := by
  have := u.toNat_lt
  apply UInt32.toNat_inj.mp
  simp only [fromBe32, UInt32.toNat_ofNat', UInt8.toNat_ofNat']
  omega

theorem be16_fromBe16 (a b : UInt8) : be16 (fromBe16 a b) = [a, b] := by
  have ha := a.toNat_lt
  have hb := b.toNat_lt
  simp only [be16, fromBe16, List.cons.injEq, and_true]
  constructor <;> apply UInt8.toNat_inj.mp <;>
    simp only [UInt16.toNat_ofNat', UInt8.toNat_ofNat'] <;> omega

theorem be32_fromBe32 (a b c d : UInt8) : be32 (fromBe32 a b c d) = [a, b, c, d] := by
  have ha := a.toNat_lt
  have hb := b.toNat_lt
  have hc := c.toNat_lt
  have hd := d.toNat_lt
  simp only [be32, fromBe32, List.cons.injEq, and_true]
  refine ⟨?_, ?_, ?_, ?_⟩ <;> apply UInt8.toNat_inj.mp <;>
    simp only [UInt32.toNat_ofNat', UInt8.toNat_ofNat'] <;> omega

end Verif

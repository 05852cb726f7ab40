import Verif.Wire.Model
namespace Verif.Wire
open Res

theorem readN_append (a r : Bytes) : readN a.length (a ++ r) = .ok (a, r) := by
  simp [readN]

theorem readN_append' {n : Nat} (a r : Bytes) (h : n = a.length) :
    readN n (a ++ r) = .ok (a, r) := by
  subst h; exact readN_append a r

theorem readN_ok {n : Nat} {r a r' : Bytes} (h : readN n r = .ok (a, r')) :
    a.length = n ∧ r = a ++ r' := by
  unfold readN at h
  split at h
  · cases h
  · injection h with h; injection h with h1 h2
    subst h1 h2
    constructor
    · rw [List.length_take]; omega
    · simp

@[simp] theorem read8_cons (a : UInt8) (r : Bytes) : read8 (a :: r) = .ok (a, r) := rfl

@[simp] theorem read16_be16 (u : UInt16) (r : Bytes) :
    read16 (be16 u ++ r) = .ok (u, r) := by
  show Res.ok (fromBe16 _ _, r) = _
  rw [fromBe16_be16]

@[simp] theorem read32_be32 (u : UInt32) (r : Bytes) :
    read32 (be32 u ++ r) = .ok (u, r) := by
  show Res.ok (fromBe32 _ _ _ _, r) = _
  rw [fromBe32_be32]

theorem read8_ok {r r' : Bytes} {a : UInt8} (h : read8 r = .ok (a, r')) : r = a :: r' := by
  unfold read8 at h; split at h
  · injection h with h; injection h with h1 h2; subst h1 h2; rfl
  · cases h

theorem read16_ok {r r' : Bytes} {u : UInt16} (h : read16 r = .ok (u, r')) :
    r = be16 u ++ r' := by
  unfold read16 at h; split at h
  · injection h with h; injection h with h1 h2; subst h1 h2
    rw [be16_fromBe16]; rfl
  · cases h

theorem read32_ok {r r' : Bytes} {u : UInt32} (h : read32 r = .ok (u, r')) :
    r = be32 u ++ r' := by
  unfold read32 at h; split at h
  · injection h with h; injection h with h1 h2; subst h1 h2
    rw [be32_fromBe32]; rfl
  · cases h

@[simp] theorem be16_length (u : UInt16) : (be16 u).length = 2 := rfl
@[simp] theorem be32_length (u : UInt32) : (be32 u).length = 4 := rfl

theorem u16_len {n : Nat} (h : n ≤ 65535) : (UInt16.ofNat n).toNat = n := by
  rw [UInt16.toNat_ofNat']; omega

/-- What a successful outer read says about the stream. -/
theorem readOuter_ok {r r' : Bytes} {oh : Outer} (h : readOuter r = .ok (oh, r')) :
    outerTypeOk oh.type = true ∧ oh.plen.toNat = oh.inner.length ∧
      r = oh.write true ++ r' := by
  unfold readOuter at h
  rw [bind_eq_ok] at h
  obtain ⟨⟨t, r1⟩, h1, h⟩ := h
  dsimp only at h
  split at h
  · cases h
  · rename_i ht
    rw [bind_eq_ok] at h
    obtain ⟨⟨p, r2⟩, h2, h⟩ := h
    dsimp only at h
    rw [bind_eq_ok] at h
    obtain ⟨⟨c, r3⟩, h3, h⟩ := h
    dsimp only at h
    rw [bind_eq_ok] at h
    obtain ⟨⟨i, r4⟩, h4, h⟩ := h
    dsimp only at h
    injection h with h; injection h with ha hb
    subst ha hb
    obtain ⟨h5, h6⟩ := readN_ok h4
    refine ⟨by simpa using ht, h5.symm, ?_⟩
    rw [read8_ok h1, read16_ok h2, read32_ok h3, h6]
    simp [Outer.write]

theorem readInner_ok {r r' : Bytes} {ih : Inner} (h : readInner r = .ok (ih, r')) :
    innerTypeOk ih.type = true ∧ ih.plen.toNat = ih.content.length ∧
      r = ih.write ++ r' := by
  unfold readInner at h
  rw [bind_eq_ok] at h
  obtain ⟨⟨t, r1⟩, h1, h⟩ := h
  dsimp only at h
  split at h
  · cases h
  · rename_i ht
    rw [bind_eq_ok] at h
    obtain ⟨⟨p, r2⟩, h2, h⟩ := h
    dsimp only at h
    rw [bind_eq_ok] at h
    obtain ⟨⟨m, r3⟩, h3, h⟩ := h
    dsimp only at h
    rw [bind_eq_ok] at h
    obtain ⟨⟨s, r4⟩, h4, h⟩ := h
    dsimp only at h
    rw [bind_eq_ok] at h
    obtain ⟨⟨i, r5⟩, h5, h⟩ := h
    dsimp only at h
    injection h with h; injection h with ha hb
    subst ha hb
    obtain ⟨h6, h7⟩ := readN_ok h5
    refine ⟨by simpa using ht, h6.symm, ?_⟩
    rw [read8_ok h1, read16_ok h2, read8_ok h3, read8_ok h4, h7]
    simp [Inner.write]

/-- A strict prefix of a self-delimiting encoding is not itself `enc ++ rest`. -/
theorem readOuter_write (oh : Outer) (ht : outerTypeOk oh.type = true)
    (hl : oh.plen.toNat = oh.inner.length) (rest : Bytes) :
    readOuter (oh.write true ++ rest) = .ok (oh, rest) := by
  have h1 : oh.write true ++ rest =
      oh.type :: (be16 oh.plen ++ (be32 oh.count ++ (oh.inner ++ rest))) := by
    simp [Outer.write]
  rw [h1]
  simp [readOuter, ht, hl, readN_append]

theorem readInner_write (ih : Inner) (ht : innerTypeOk ih.type = true)
    (hl : ih.plen.toNat = ih.content.length) (rest : Bytes) :
    readInner (ih.write ++ rest) = .ok (ih, rest) := by
  have h1 : ih.write ++ rest =
      ih.type :: (be16 ih.plen ++ (ih.more :: ih.skip :: (ih.content ++ rest))) := by
    simp [Inner.write]
  rw [h1]
  simp [readInner, ht, hl, readN_append]

theorem readN_total {n : Nat} {r : Bytes} : readN n r ≠ .panic := by
  unfold readN; split <;> simp
theorem read8_total {r : Bytes} : read8 r ≠ .panic := by
  unfold read8; split <;> simp
theorem read16_total {r : Bytes} : read16 r ≠ .panic := by
  unfold read16; split <;> simp
theorem read32_total {r : Bytes} : read32 r ≠ .panic := by
  unfold read32; split <;> simp

theorem bind_ne_panic {ε α β : Type} {x : Res ε α} {f : α → Res ε β}
    (h : x ≠ .panic) (hf : ∀ a, x = .ok a → f a ≠ .panic) : (x >>= f) ≠ .panic := by
  cases x with
  | ok a => exact hf a rfl
  | err e => simp
  | panic => exact absurd rfl h

theorem readOuter_total (r : Bytes) : readOuter r ≠ .panic := by
  unfold readOuter
  refine bind_ne_panic read8_total fun _ _ => ?_
  dsimp only; split
  · simp
  refine bind_ne_panic read16_total fun _ _ => ?_
  refine bind_ne_panic read32_total fun _ _ => ?_
  refine bind_ne_panic readN_total fun _ _ => ?_
  simp

theorem readInner_total (r : Bytes) : readInner r ≠ .panic := by
  unfold readInner
  refine bind_ne_panic read8_total fun _ _ => ?_
  dsimp only; split
  · simp
  refine bind_ne_panic read16_total fun _ _ => ?_
  refine bind_ne_panic read8_total fun _ _ => ?_
  refine bind_ne_panic read8_total fun _ _ => ?_
  refine bind_ne_panic readN_total fun _ _ => ?_
  simp

theorem readPre_ok {r r' : Bytes} {ph : Pre} (h : readPre r = .ok (ph, r')) :
    ph.version = 1 ∧ ph.suite = ciphersuite ∧ ph.lenSuite = 28 ∧
      ph.lenPub.toNat = ph.pub.length ∧ r = ph.write ++ r' := by
  unfold readPre at h
  rw [bind_eq_ok] at h
  obtain ⟨⟨t, r1⟩, h1, h⟩ := h
  dsimp only at h
  split at h
  · cases h
  rename_i hv
  rw [bind_eq_ok] at h
  obtain ⟨⟨ls, r2⟩, h2, h⟩ := h
  dsimp only at h
  split at h
  · cases h
  rename_i hls
  rw [bind_eq_ok] at h
  obtain ⟨⟨s, r3⟩, h3, h⟩ := h
  dsimp only at h
  split at h
  · cases h
  rename_i hs
  rw [bind_eq_ok] at h
  obtain ⟨⟨lp, r4⟩, h4, h⟩ := h
  dsimp only at h
  rw [bind_eq_ok] at h
  obtain ⟨⟨pub, r5⟩, h5, h⟩ := h
  dsimp only at h
  injection h with h; injection h with ha hb
  subst ha hb
  obtain ⟨h6, h7⟩ := readN_ok h3
  obtain ⟨h8, h9⟩ := readN_ok h5
  refine ⟨by simpa [version] using hv, by simpa using hs, by simpa [ciphersuite] using hls,
    h8.symm, ?_⟩
  rw [read16_ok h1, read16_ok h2, h7, read16_ok h4, h9]
  simp [Pre.write]

theorem readPre_write (pub rest : Bytes) (h : pub.length ≤ 65535) :
    readPre ((newPre pub).write ++ rest) = .ok (newPre pub, rest) := by
  have h1 : (newPre pub).write ++ rest =
      be16 version ++ (be16 (UInt16.ofNat ciphersuite.length) ++ (ciphersuite ++
        (be16 (UInt16.ofNat pub.length) ++ (pub ++ rest)))) := by
    simp [Pre.write, newPre]
  rw [h1]
  have h2 : (UInt16.ofNat ciphersuite.length).toNat = ciphersuite.length := by decide
  simp only [readPre, read16_be16, bind_ok, bne_self_eq_false, Bool.false_eq_true, if_false,
    h2, readN_append, u16_len h]
  rfl

theorem readPre_total (r : Bytes) : readPre r ≠ .panic := by
  unfold readPre
  refine bind_ne_panic read16_total fun _ _ => ?_
  dsimp only; split
  · simp
  refine bind_ne_panic read16_total fun _ _ => ?_
  split
  · simp
  refine bind_ne_panic readN_total fun _ _ => ?_
  split
  · simp
  refine bind_ne_panic read16_total fun _ _ => ?_
  refine bind_ne_panic readN_total fun _ _ => ?_
  simp

/-! 64-bit shift/or arithmetic -/

theorem toUInt8_shift (u : UInt64) (k : UInt64) (hk : k.toNat < 64) :
    (u >>> k).toUInt8.toNat = u.toNat / 2 ^ k.toNat % 256 := by
  simp only [UInt64.toNat_toUInt8, UInt64.toNat_shiftRight, Nat.shiftRight_eq_div_pow,
    Nat.mod_eq_of_lt hk]

theorem or_shift (a b n : Nat) (hb : b < 2 ^ n) : (a <<< n) ||| b = a * 2 ^ n + b := by
  rw [← Nat.shiftLeft_add_eq_or_of_lt hb, Nat.shiftLeft_eq]

end Verif.Wire

import Verif.Wire.Lemmas
/-
Properties C01–C04.  `Outer.write`, `readOuter`, … are the modelled Go
functions; statements use only them, list append and numeric bounds.
-/
namespace Verif.Wire
open Res

/-- The five packet types a sender can put in an outer header. -/
def IsOuterType (t : UInt8) : Prop := t = 1 ∨ t = 2 ∨ t = 4 ∨ t = 8 ∨ t = 16

/-- The inner types the reader accepts: padding, data, signed data, signature. -/
def IsInnerType (t : UInt8) : Prop := t = 1 ∨ t = 2 ∨ t = 6 ∨ t = 8

theorem outerTypeOk_iff (t : UInt8) : outerTypeOk t = true ↔ IsOuterType t := by
  simp only [outerTypeOk, IsOuterType, preHeaderPacket, encryptedHeader, cryptoSetup,
    hmacPacket, encryptedPacket]
  simp
  grind

theorem innerTypeOk_iff (t : UInt8) : innerTypeOk t = true ↔ IsInnerType t := by
  have : (dataType ||| signType) = 6 := by decide
  simp only [innerTypeOk, IsInnerType, this]
  simp [paddingType, dataType, signatureType]
  grind

/-- C01: an outer header written with its payload is read back field by field,
and reading consumes exactly the bytes written. -/
theorem C01_outer_roundtrip (t : UInt8) (ht : IsOuterType t) (count : UInt32)
    (payload rest : Bytes) (hl : payload.length ≤ 65535) :
    ∃ oh, readOuter ((newOuter t count payload).write true ++ rest) = .ok (oh, rest) ∧
      oh.type = t ∧ oh.count = count ∧ oh.plen.toNat = payload.length ∧
      oh.inner = payload :=
  ⟨newOuter t count payload,
    readOuter_write _ ((outerTypeOk_iff _).2 ht) (u16_len hl) rest,
    rfl, rfl, u16_len hl, rfl⟩

example : IsOuterType 16 ∧ (List.replicate 65535 (0 : UInt8)).length ≤ 65535 :=
  ⟨by simp [IsOuterType], by rw [List.length_replicate]; exact Nat.le_refl _⟩

/-- C01: a stream cut anywhere inside a header yields an error, never a header
and never a panic. -/
theorem C01_outer_truncated (t : UInt8) (count : UInt32) (payload : Bytes)
    (hl : payload.length ≤ 65535) (n : Nat) (hn : n < 7 + payload.length) :
    ∃ e, readOuter (((newOuter t count payload).write true).take n) = .err e := by
  have hlen : ((newOuter t count payload).write true).length = 7 + payload.length := by
    simp [Outer.write, newOuter]; omega
  cases h : readOuter (((newOuter t count payload).write true).take n) with
  | err e => exact ⟨e, rfl⟩
  | panic => exact absurd h (readOuter_total _)
  | ok p =>
    obtain ⟨oh, r'⟩ := p
    exfalso
    obtain ⟨ht, hp, heq⟩ := readOuter_ok h
    have hfull : (newOuter t count payload).write true =
        oh.write true ++ (r' ++ ((newOuter t count payload).write true).drop n) := by
      conv => lhs; rw [← List.take_append_drop n ((newOuter t count payload).write true)]
      rw [heq, List.append_assoc]
    have hr := readOuter_write oh ht hp (r' ++ ((newOuter t count payload).write true).drop n)
    rw [← hfull] at hr
    have ht' : t = oh.type := by
      have := congrArg List.head? hfull
      simpa [Outer.write, newOuter] using this
    have hr2 := readOuter_write (newOuter t count payload)
      (by show outerTypeOk t = true; rw [ht']; exact ht) (u16_len hl) []
    rw [List.append_nil, hr] at hr2
    injection hr2 with hr2; injection hr2 with _ hr3
    have := congrArg List.length hr3
    simp only [List.length_append, List.length_drop, hlen, List.length_nil] at this
    omega

/-- C01: every accepted stream starts with the written form of the header that
is returned: reading is injective, so two headers never share a byte form. -/
theorem C01_outer_read_sound (r rest : Bytes) (oh : Outer)
    (h : readOuter r = .ok (oh, rest)) :
    r = oh.write true ++ rest ∧ oh.plen.toNat = oh.inner.length ∧ IsOuterType oh.type :=
  let ⟨a, b, c⟩ := readOuter_ok h
  ⟨c, b, (outerTypeOk_iff _).1 a⟩

example : readOuter [16, 0, 2, 0, 0, 0, 5, 7, 8, 99] =
    .ok ({ type := 16, plen := 2, count := 5, inner := [7, 8] }, [99]) := by decide

/-- C01: any other type byte is refused, whatever follows. -/
theorem C01_outer_bad_type (t : UInt8) (ht : ¬ IsOuterType t) (r : Bytes) :
    readOuter (t :: r) = .err (.badOuterType t) := by
  have : outerTypeOk t = false := by
    cases h : outerTypeOk t
    · rfl
    · exact absurd ((outerTypeOk_iff t).1 h) ht
  simp [readOuter, this]

example : ¬ IsOuterType 3 := by simp [IsOuterType]

/-- C02: inner headers with content of at most 65535 bytes round-trip. -/
theorem C02_inner_roundtrip (t : UInt8) (ht : IsInnerType t) (more : Bool)
    (content rest : Bytes) (hl : content.length ≤ 65535) :
    ∃ ih, readInner ((newInner t more content).write ++ rest) = .ok (ih, rest) ∧
      ih.type = t ∧ (ih.more ≠ 0 ↔ more = true) ∧ ih.content = content ∧
      (newInner t more content).write.length = (newInner t more content).size := by
  refine ⟨newInner t more content,
    readInner_write _ ((innerTypeOk_iff _).2 ht) (u16_len hl) rest, rfl, ?_, rfl, ?_⟩
  · cases more <;> simp [newInner]
  · simp [newInner, Inner.write, Inner.size]; omega

example : IsInnerType 6 := by simp [IsInnerType]

/-- C02: content longer than the 16-bit length field is never recovered, for any
length above the limit: the reader returns a shorter content. -/
theorem C02_inner_truncates (t : UInt8) (ht : IsInnerType t) (more : Bool)
    (content : Bytes) (hl : 65535 < content.length) :
    ∃ ih rest, readInner (newInner t more content).write = .ok (ih, rest) ∧
      ih.content = content.take (content.length % 65536) ∧ ih.content ≠ content := by
  have hmod : (UInt16.ofNat content.length).toNat = content.length % 65536 := by
    rw [UInt16.toNat_ofNat']
  have hlt : content.length % 65536 < 65536 := Nat.mod_lt _ (by decide)
  have hread : readN (content.length % 65536) content =
      .ok (content.take (content.length % 65536), content.drop (content.length % 65536)) := by
    unfold readN; rw [if_neg (by omega)]
  refine ⟨{ newInner t more content with
      content := content.take (content.length % 65536) },
    content.drop (content.length % 65536), ?_, rfl, ?_⟩
  · have h1 : (newInner t more content).write =
      t :: (be16 (UInt16.ofNat content.length) ++
        ((if more then 1 else 0) :: (0 : UInt8) :: content)) := rfl
    rw [h1]
    simp [readInner, (innerTypeOk_iff t).2 ht, hmod, hread, newInner]
  · intro h
    have := congrArg List.length h
    simp only [List.length_take] at this
    omega

example : 65535 < (List.replicate 65536 (1 : UInt8)).length := by
  rw [List.length_replicate]; decide

/-- C02: truncated inner headers are errors. -/
theorem C02_inner_truncated_input (t : UInt8) (more : Bool) (content : Bytes)
    (hl : content.length ≤ 65535) (n : Nat) (hn : n < 5 + content.length) :
    ∃ e, readInner (((newInner t more content).write).take n) = .err e := by
  have hlen : ((newInner t more content).write).length = 5 + content.length := by
    simp [Inner.write, newInner]; omega
  cases h : readInner (((newInner t more content).write).take n) with
  | err e => exact ⟨e, rfl⟩
  | panic => exact absurd h (readInner_total _)
  | ok p =>
    obtain ⟨ih, r'⟩ := p
    exfalso
    obtain ⟨ht, hp, heq⟩ := readInner_ok h
    have hfull : (newInner t more content).write =
        ih.write ++ (r' ++ ((newInner t more content).write).drop n) := by
      conv => lhs; rw [← List.take_append_drop n ((newInner t more content).write)]
      rw [heq, List.append_assoc]
    have hr := readInner_write ih ht hp (r' ++ ((newInner t more content).write).drop n)
    rw [← hfull] at hr
    have ht' : t = ih.type := by
      have := congrArg List.head? hfull
      simpa [Inner.write, newInner] using this
    have hr2 := readInner_write (newInner t more content)
      (by show innerTypeOk t = true; rw [ht']; exact ht) (u16_len hl) []
    rw [List.append_nil, hr] at hr2
    injection hr2 with hr2; injection hr2 with _ hr3
    have := congrArg List.length hr3
    simp only [List.length_append, List.length_drop, hlen, List.length_nil] at this
    omega

/-- The number whose base-256 digits, least significant first, are the bytes. -/
def leValue : Bytes → Nat
  | [] => 0
  | b :: bs => b.toNat + 256 * leValue bs

/-- C03: `ToByte8` writes exactly the eight base-256 digits of the integer. -/
theorem C03_toByte8_spec (u : UInt64) :
    (toByte8 u).length = 8 ∧ leValue (toByte8 u) = u.toNat := by
  refine ⟨rfl, ?_⟩
  have h := u.toNat_lt
  simp only [toByte8, leValue, toUInt8_shift _ _ (show (8 : UInt64).toNat < 64 by decide),
    toUInt8_shift _ _ (show (16 : UInt64).toNat < 64 by decide),
    toUInt8_shift _ _ (show (24 : UInt64).toNat < 64 by decide),
    toUInt8_shift _ _ (show (32 : UInt64).toNat < 64 by decide),
    toUInt8_shift _ _ (show (40 : UInt64).toNat < 64 by decide),
    toUInt8_shift _ _ (show (48 : UInt64).toNat < 64 by decide),
    toUInt8_shift _ _ (show (56 : UInt64).toNat < 64 by decide), UInt64.toNat_toUInt8,
    UInt64.reduceToNat]
  omega

/-- C03: `ToUint64` of eight bytes is the number they denote. -/
theorem C03_toUint64_spec (b : Bytes) (h : b.length = 8) :
    ∃ u, toUint64 b = .ok u ∧ u.toNat = leValue b := by
  match b, h with
  | [b0, b1, b2, b3, b4, b5, b6, b7], _ =>
    refine ⟨_, rfl, ?_⟩
    have h0 := b0.toNat_lt; have h1 := b1.toNat_lt; have h2 := b2.toNat_lt
    have h3 := b3.toNat_lt; have h4 := b4.toNat_lt; have h5 := b5.toNat_lt
    have h6 := b6.toNat_lt; have h7 := b7.toNat_lt
    have e : ∀ (x : UInt8) (k : UInt64), k.toNat ≤ 56 →
        (x.toUInt64 <<< k).toNat = x.toNat <<< k.toNat := by
      intro x k hk
      have hx := x.toNat_lt
      have hk' : k.toNat % 64 = k.toNat := Nat.mod_eq_of_lt (by omega)
      rw [UInt64.toNat_shiftLeft, UInt8.toNat_toUInt64, hk', Nat.mod_eq_of_lt]
      rw [Nat.shiftLeft_eq]
      calc x.toNat * 2 ^ k.toNat < 256 * 2 ^ k.toNat :=
            Nat.mul_lt_mul_of_pos_right hx (Nat.two_pow_pos _)
        _ ≤ 256 * 2 ^ 56 := Nat.mul_le_mul_left _ (Nat.pow_le_pow_right (by decide) hk)
        _ = 2 ^ 64 := by decide
    simp only [UInt64.toNat_or, e _ 56 (by decide), e _ 48 (by decide), e _ 40 (by decide),
      e _ 32 (by decide), e _ 24 (by decide), e _ 16 (by decide), e _ 8 (by decide),
      UInt8.toNat_toUInt64, UInt64.reduceToNat, leValue]
    have r0 := or_shift b1.toNat b0.toNat 8 (by omega)
    have r1 := or_shift b2.toNat (b1.toNat * 2 ^ 8 + b0.toNat) 16 (by omega)
    have r2 := or_shift b3.toNat (b2.toNat * 2 ^ 16 + (b1.toNat * 2 ^ 8 + b0.toNat)) 24 (by omega)
    have r3 := or_shift b4.toNat (b3.toNat * 2 ^ 24 + (b2.toNat * 2 ^ 16 +
      (b1.toNat * 2 ^ 8 + b0.toNat))) 32 (by omega)
    have r4 := or_shift b5.toNat (b4.toNat * 2 ^ 32 + (b3.toNat * 2 ^ 24 + (b2.toNat * 2 ^ 16 +
      (b1.toNat * 2 ^ 8 + b0.toNat)))) 40 (by omega)
    have r5 := or_shift b6.toNat (b5.toNat * 2 ^ 40 + (b4.toNat * 2 ^ 32 + (b3.toNat * 2 ^ 24 +
      (b2.toNat * 2 ^ 16 + (b1.toNat * 2 ^ 8 + b0.toNat))))) 48 (by omega)
    have r6 := or_shift b7.toNat (b6.toNat * 2 ^ 48 + (b5.toNat * 2 ^ 40 + (b4.toNat * 2 ^ 32 +
      (b3.toNat * 2 ^ 24 + (b2.toNat * 2 ^ 16 + (b1.toNat * 2 ^ 8 + b0.toNat)))))) 56 (by omega)
    simp only [Nat.or_assoc]
    rw [r0, r1, r2, r3, r4, r5, r6]
    omega

theorem leValue_inj : ∀ (a b : Bytes), a.length = b.length → leValue a = leValue b → a = b
  | [], [], _, _ => rfl
  | x :: xs, y :: ys, hl, hv => by
    have hx := x.toNat_lt
    have hy := y.toNat_lt
    simp only [leValue] at hv
    have h1 : x.toNat = y.toNat := by omega
    have h2 : leValue xs = leValue ys := by omega
    rw [UInt8.toNat_inj.mp h1, leValue_inj xs ys (by simpa using hl) h2]

/-- C03: decoding an encoded integer returns it, for all three widths. -/
theorem C03_decode_encode (u : UInt64) (v : UInt16) (w : UInt8) :
    toUint64 (toByte8 u) = .ok u ∧ toUint16 (toByte2 v) = .ok v ∧ toByte1 w = [w] := by
  refine ⟨?_, ?_, rfl⟩
  · obtain ⟨u', h1, h2⟩ := C03_toUint64_spec (toByte8 u) rfl
    rw [h1, UInt64.toNat_inj.mp (h2.trans (C03_toByte8_spec u).2)]
  · have hv := v.toNat_lt
    simp only [toByte2, toUint16, Res.ok.injEq]
    apply UInt16.toNat_inj.mp
    have hs : ((v >>> 8).toUInt8.toNat) = v.toNat / 256 := by
      simp only [UInt16.toNat_toUInt8, UInt16.toNat_shiftRight, Nat.shiftRight_eq_div_pow,
        UInt16.reduceToNat, Nat.reduceMod, Nat.reducePow]
      omega
    have hl : ((v >>> 8).toUInt8.toUInt16 <<< 8).toNat = (v.toNat / 256) <<< 8 := by
      rw [UInt16.toNat_shiftLeft, UInt8.toNat_toUInt16, hs, Nat.shiftLeft_eq, Nat.shiftLeft_eq]
      simp only [UInt16.reduceToNat, Nat.reduceMod, Nat.reducePow]
      omega
    rw [UInt16.toNat_or, hl, UInt8.toNat_toUInt16, UInt16.toNat_toUInt8,
      or_shift _ _ _ (by omega)]
    omega

/-- C03: encoding a decoded slice returns the slice. -/
theorem C03_encode_decode (b : Bytes) :
    (∀ u, toUint64 b = .ok u → toByte8 u = b) ∧
    (∀ v, toUint16 b = .ok v → toByte2 v = b) := by
  constructor
  · intro u h
    have hb : b.length = 8 := by
      unfold toUint64 at h; split at h
      · rfl
      · cases h
    obtain ⟨u', h1, h2⟩ := C03_toUint64_spec b hb
    rw [h1] at h; injection h with h; subst h
    exact leValue_inj _ _ (by rw [hb]; rfl) ((C03_toByte8_spec _).2.trans h2)
  · intro v h
    unfold toUint16 at h; split at h
    · rename_i b0 b1
      injection h with h; subst h
      have h0 := b0.toNat_lt
      have h1 := b1.toNat_lt
      have hl : (b1.toUInt16 <<< 8).toNat = b1.toNat <<< 8 := by
        rw [UInt16.toNat_shiftLeft, UInt8.toNat_toUInt16, Nat.shiftLeft_eq, Nat.shiftLeft_eq]
        simp only [UInt16.reduceToNat, Nat.reduceMod, Nat.reducePow]
        omega
      have hor : (b1.toUInt16 <<< 8 ||| b0.toUInt16).toNat = b1.toNat * 2 ^ 8 + b0.toNat := by
        rw [UInt16.toNat_or, hl, UInt8.toNat_toUInt16, or_shift _ _ _ (by omega)]
      simp only [toByte2, List.cons.injEq, and_true]
      constructor <;> apply UInt8.toNat_inj.mp
      · rw [UInt16.toNat_toUInt8, hor]; omega
      · rw [UInt16.toNat_toUInt8, UInt16.toNat_shiftRight, hor, Nat.shiftRight_eq_div_pow]
        simp only [UInt16.reduceToNat, Nat.reduceMod, Nat.reducePow]
        omega
    · cases h

/-- C03: every other slice length panics, and only those do. -/
theorem C03_panics_iff (b : Bytes) :
    (toUint64 b = .panic ↔ b.length ≠ 8) ∧ (toUint16 b = .panic ↔ b.length ≠ 2) := by
  constructor
  · constructor
    · intro h hl
      obtain ⟨u, h1, _⟩ := C03_toUint64_spec b hl
      rw [h1] at h; cases h
    · intro h; unfold toUint64; split
      · simp at h
      · rfl
  · constructor
    · intro h hl
      unfold toUint16 at h; split at h
      · cases h
      · match b, hl with
        | [x, y], _ => rename_i hn; exact hn x y rfl
    · intro h; unfold toUint16; split
      · simp at h
      · rfl

example : toUint64 [1, 2, 0, 0, 0, 0, 0, 128] = .ok 9223372036854776321 := by decide

/-- C04: a pre-header around any header key of at most 65535 bytes is read back
with version 1, and the first-packet reader delivers its bytes and version. -/
theorem C04_preheader_roundtrip (pub rest : Bytes) (hl : pub.length ≤ 65535) :
    ∃ ph, readPre ((newPre pub).write ++ rest) = .ok (ph, rest) ∧
      ph.version = 1 ∧ ph.suite = ciphersuite ∧ ph.pub = pub :=
  ⟨newPre pub, readPre_write pub rest hl, rfl, rfl, rfl⟩

theorem C04_first_roundtrip (pub rest : Bytes) (hl : pub.length ≤ 65501) :
    readFirst ((newOuter 1 0 (newPre pub).write).write true ++ rest) =
      .ok (1, (newPre pub).write, rest) := by
  have hlen : (newPre pub).write.length = 34 + pub.length := by
    simp [Pre.write, newPre, ciphersuite]; omega
  have h1 : (newOuter 1 0 (newPre pub).write).write true ++ rest =
      1 :: (be16 (UInt16.ofNat (newPre pub).write.length) ++ (be32 0 ++
        ((newPre pub).write ++ rest))) := by
    simp [Outer.write, newOuter]
  have h2 : read16 (newPre pub).write = .ok (1, _) := read16_be16 1 _
  rw [h1]
  simp only [readFirst, read8_cons, read16_be16, read32_be32, bind_ok, preHeaderPacket,
    u16_len (show (newPre pub).write.length ≤ 65535 by omega), readN_append, h2]
  rfl

/-- C04: only version 1 with the one known ciphersuite is accepted, and an
accepted stream starts with the written form of the pre-header returned. -/
theorem C04_preheader_read_sound (r rest : Bytes) (ph : Pre) (h : readPre r = .ok (ph, rest)) :
    ph.version = 1 ∧ ph.suite = ciphersuite ∧ r = ph.write ++ rest :=
  let ⟨a, b, _, _, e⟩ := readPre_ok h
  ⟨a, b, e⟩

/-- C04: what the first-packet reader accepts is a pre-header packet with
packet count 0, and the version it reports is that of the pre-header. -/
theorem C04_first_read_sound (r pre rest : Bytes) (v : UInt16)
    (h : readFirst r = .ok (v, pre, rest)) :
    ∃ tail, pre = be16 v ++ tail ∧ pre.length ≤ 65535 ∧
      r = (newOuter preHeaderPacket 0 pre).write true ++ rest := by
  unfold readFirst at h
  rw [bind_eq_ok] at h
  obtain ⟨⟨t, r1⟩, h1, h⟩ := h
  dsimp only at h
  split at h
  · cases h
  rename_i ht
  rw [bind_eq_ok] at h
  obtain ⟨⟨plen, r2⟩, h2, h⟩ := h
  dsimp only at h
  rw [bind_eq_ok] at h
  obtain ⟨⟨count, r3⟩, h3, h⟩ := h
  dsimp only at h
  split at h
  · cases h
  rename_i hcount
  rw [bind_eq_ok] at h
  obtain ⟨⟨p, r4⟩, h4, h⟩ := h
  dsimp only at h
  rw [bind_eq_ok] at h
  obtain ⟨⟨v', tail⟩, h5, h⟩ := h
  dsimp only at h
  simp only [Res.ok.injEq, Prod.mk.injEq] at h
  obtain ⟨rfl, rfl, rfl⟩ := h
  obtain ⟨h6, h7⟩ := readN_ok h4
  have ht : t = preHeaderPacket := by simpa using ht
  have hcount : count = 0 := by simpa using hcount
  have hp := plen.toNat_lt
  refine ⟨tail, read16_ok h5, by omega, ?_⟩
  rw [read8_ok h1, read16_ok h2, read32_ok h3, h7, ht, hcount]
  have : plen = UInt16.ofNat p.length := by
    rw [h6]; simp
  simp [Outer.write, newOuter, this]

/-- C04: a pre-header cut anywhere is an error. -/
theorem C04_preheader_truncated (pub : Bytes) (hl : pub.length ≤ 65535) (n : Nat)
    (hn : n < (newPre pub).write.length) :
    ∃ e, readPre ((newPre pub).write.take n) = .err e := by
  cases h : readPre ((newPre pub).write.take n) with
  | err e => exact ⟨e, rfl⟩
  | panic => exact absurd h (readPre_total _)
  | ok p =>
    obtain ⟨ph, r'⟩ := p
    exfalso
    obtain ⟨hv, hs, hls, hlp, heq⟩ := readPre_ok h
    have hph : ph = newPre ph.pub := by
      obtain ⟨v, ls, s, lp, pb⟩ := ph
      dsimp only at hv hs hls hlp
      subst hv hs hls
      have : lp = UInt16.ofNat pb.length := by rw [← hlp]; simp
      subst this; rfl
    have hb : ph.pub.length ≤ 65535 := by
      have := ph.lenPub.toNat_lt; omega
    have hfull : (newPre pub).write = ph.write ++ (r' ++ (newPre pub).write.drop n) := by
      conv => lhs; rw [← List.take_append_drop n (newPre pub).write]
      rw [heq, List.append_assoc]
    have hr := readPre_write ph.pub (r' ++ (newPre pub).write.drop n) hb
    rw [← hph, ← hfull] at hr
    have hr2 := readPre_write pub [] hl
    rw [List.append_nil, hr] at hr2
    injection hr2 with hr2; injection hr2 with _ hr3
    have := congrArg List.length hr3
    simp only [List.length_append, List.length_drop, List.length_nil] at this
    omega

example : (newPre (List.replicate 32 7)).write.length = 66 := by decide

end Verif.Wire

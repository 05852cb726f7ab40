/-
cipher/aes256/aes256.go: AES-256 in CBC and CTR mode. The block cipher is a
parameter; the modes of operation, the IV handling and the length panics are
modelled.
-/
import Verif.Go

namespace Verif.Cipher

/-- A block cipher with 32 byte keys and 16 byte blocks. -/
structure Block where
  enc : Bytes → Bytes → Bytes
  dec : Bytes → Bytes → Bytes

/-- What AES provides. -/
structure Block.Good (B : Block) : Prop where
  enc_len : ∀ k b, b.length = 16 → (B.enc k b).length = 16
  dec_enc : ∀ k b, b.length = 16 → B.dec k (B.enc k b) = b

/-- Bytewise exclusive or of two strings. -/
def xors (a b : Bytes) : Bytes := List.zipWith (· ^^^ ·) a b

/-- `cipher.NewCBCEncrypter(block, iv).CryptBlocks` on whole blocks. -/
def cbcEncBlocks (B : Block) (key prev pt : Bytes) : Bytes :=
  if pt = [] then [] else
  let c := B.enc key (xors (pt.take 16) prev)
  c ++ cbcEncBlocks B key c (pt.drop 16)
  termination_by pt.length
  decreasing_by
    rename_i h
    have := List.length_pos_iff.mpr h
    simp; omega

/-- `cipher.NewCBCDecrypter(block, iv).CryptBlocks` on whole blocks. -/
def cbcDecBlocks (B : Block) (key prev ct : Bytes) : Bytes :=
  if ct = [] then [] else
  let c := ct.take 16
  xors (B.dec key c) prev ++ cbcDecBlocks B key c (ct.drop 16)
  termination_by ct.length
  decreasing_by
    rename_i h
    have := List.length_pos_iff.mpr h
    simp; omega

/-- `CBCEncrypt` (aes256.go:16-43); `iv` is what the random reader delivers. -/
def cbcEncrypt (B : Block) (key plaintext iv : Bytes) : Res Unit Bytes :=
  if key.length ≠ 32 then .panic
  else if plaintext.length % 16 ≠ 0 then .panic
  else .ok (iv ++ cbcEncBlocks B key iv plaintext)

/-- `CBCDecrypt` (aes256.go:48-74). -/
def cbcDecrypt (B : Block) (key ciphertext : Bytes) : Res Unit Bytes :=
  if key.length ≠ 32 then .panic
  else if ciphertext.length < 16 then .panic
  else if (ciphertext.drop 16).length % 16 ≠ 0 then .panic
  else .ok (cbcDecBlocks B key (ciphertext.take 16) (ciphertext.drop 16))

/-- The counter block after `i` increments: the IV read as a big-endian number
plus `i`, modulo 2^128 (crypto/cipher.NewCTR). -/
def ctrBlock (iv : Bytes) (i : Nat) : Bytes :=
  let n := iv.foldl (fun a b => a * 256 + b.toNat) 0 + i
  (List.range 16).map fun j => UInt8.ofNat (n / 256 ^ (15 - j))

/-- `stream.XORKeyStream` from the beginning of the stream. -/
def ctrXor (B : Block) (key iv : Bytes) (i : Nat) (data : Bytes) : Bytes :=
  if data = [] then [] else
  xors (data.take 16) (B.enc key (ctrBlock iv i)) ++ ctrXor B key iv (i + 1) (data.drop 16)
  termination_by data.length
  decreasing_by
    rename_i h
    have := List.length_pos_iff.mpr h
    simp; omega

/-- `CTREncrypt` (aes256.go:79-98). -/
def ctrEncrypt (B : Block) (key plaintext iv : Bytes) : Res Unit Bytes :=
  if key.length ≠ 32 then .panic
  else .ok (iv ++ ctrXor B key iv 0 plaintext)

/-- `CTRDecrypt` (aes256.go:103-122). -/
def ctrDecrypt (B : Block) (key ciphertext : Bytes) : Res Unit Bytes :=
  if key.length ≠ 32 then .panic
  else if ciphertext.length < 16 then .panic
  else .ok (ctrXor B key (ciphertext.take 16) 0 (ciphertext.drop 16))

/-! ### Properties -/

theorem xors_length (a b : Bytes) : (xors a b).length = min a.length b.length := by
  simp [xors]

theorem xor_cancel (x y : UInt8) : x ^^^ y ^^^ y = x := by
  rw [UInt8.xor_assoc, UInt8.xor_self, UInt8.xor_zero]

theorem xors_xors (a b : Bytes) (h : a.length ≤ b.length) : xors (xors a b) b = a := by
  induction a generalizing b with
  | nil => rfl
  | cons x a ih =>
    cases b with
    | nil => simp at h
    | cons y b =>
      simp only [List.length_cons] at h
      show (x ^^^ y ^^^ y) :: xors (xors a b) b = _
      rw [xor_cancel, ih b (by omega)]

theorem cbcDec_cbcEnc (B : Block) (hB : B.Good) (key : Bytes) (prev pt : Bytes)
    (hp : prev.length = 16) (hl : pt.length % 16 = 0) :
    cbcDecBlocks B key prev (cbcEncBlocks B key prev pt) = pt ∧
      (cbcEncBlocks B key prev pt).length = pt.length := by
  by_cases h : pt = []
  · subst h
    unfold cbcEncBlocks
    rw [if_pos rfl]
    unfold cbcDecBlocks
    simp
  · have hpos := List.length_pos_iff.mpr h
    have hx : (xors (pt.take 16) prev).length = 16 := by
      rw [xors_length, List.length_take]; omega
    have hc := hB.enc_len key _ hx
    obtain ⟨ih1, ih2⟩ := cbcDec_cbcEnc B hB key (B.enc key (xors (pt.take 16) prev)) (pt.drop 16) hc
      (by rw [List.length_drop]; omega)
    have henc : cbcEncBlocks B key prev pt = B.enc key (xors (pt.take 16) prev) ++
        cbcEncBlocks B key (B.enc key (xors (pt.take 16) prev)) (pt.drop 16) := by
      rw [cbcEncBlocks, if_neg h]
    constructor
    · rw [henc]
      generalize hcv : B.enc key (xors (pt.take 16) prev) = c at *
      unfold cbcDecBlocks
      rw [if_neg (by
        intro he
        have := (List.append_eq_nil_iff.mp he).1
        rw [this] at hc; simp at hc)]
      dsimp only
      rw [List.take_left' hc, List.drop_left' hc, ih1, ← hcv, hB.dec_enc key _ hx,
        xors_xors _ _ (by rw [List.length_take]; omega), List.take_append_drop]
    · rw [henc, List.length_append, hc, ih2, List.length_drop]; omega
  termination_by pt.length
  decreasing_by
    simp; omega

theorem ctrBlock_length (iv : Bytes) (i : Nat) : (ctrBlock iv i).length = 16 := by
  simp [ctrBlock]

theorem ctrXor_ctrXor (B : Block) (hB : B.Good) (key iv : Bytes) (i : Nat) (data : Bytes) :
    ctrXor B key iv i (ctrXor B key iv i data) = data ∧
      (ctrXor B key iv i data).length = data.length := by
  by_cases h : data = []
  · subst h
    have : ctrXor B key iv i [] = [] := by rw [ctrXor, if_pos rfl]
    rw [this, this]
    simp
  · have hpos := List.length_pos_iff.mpr h
    obtain ⟨ih1, ih2⟩ := ctrXor_ctrXor B hB key iv (i + 1) (data.drop 16)
    have hb := hB.enc_len key _ (ctrBlock_length iv i)
    have he : ctrXor B key iv i data = xors (data.take 16) (B.enc key (ctrBlock iv i)) ++
        ctrXor B key iv (i + 1) (data.drop 16) := by
      rw [ctrXor, if_neg h]
    have hxl : (xors (data.take 16) (B.enc key (ctrBlock iv i))).length = min 16 data.length := by
      rw [xors_length, List.length_take, hb]; omega
    have hlen : (ctrXor B key iv i data).length = data.length := by
      rw [he, List.length_append, ih2, hxl, List.length_drop]; omega
    refine ⟨?_, hlen⟩
    rw [ctrXor, if_neg (by intro h0; rw [h0] at hlen; simp at hlen; omega)]
    rw [he]
    rcases Nat.lt_or_ge data.length 16 with hs | hs
    · have hd : data.drop 16 = [] := List.drop_of_length_le (by omega)
      have ht : data.take 16 = data := List.take_of_length_le (by omega)
      have hrest : ctrXor B key iv (i + 1) [] = [] := by rw [ctrXor, if_pos rfl]
      rw [hd, hrest, List.append_nil, ht]
      rw [ht] at hxl
      rw [List.take_of_length_le (by omega), List.drop_of_length_le (by omega), hrest,
        List.append_nil, xors_xors _ _ (by omega)]
    · rw [List.take_left' (by omega), List.drop_left' (by omega), ih1,
        xors_xors _ _ (by rw [List.length_take]; omega), List.take_append_drop]
  termination_by data.length
  decreasing_by
    simp; omega

/-- Decrypting what was encrypted under the same key returns the plaintext: in
CBC mode for every plaintext of whole blocks, in CTR mode for every plaintext;
the ciphertext is 16 bytes longer. -/
theorem C66_aes_round_trip (B : Block) (hB : B.Good) (key pt iv : Bytes)
    (hk : key.length = 32) (hiv : iv.length = 16) :
    (pt.length % 16 = 0 → ∃ ct, cbcEncrypt B key pt iv = .ok ct ∧ ct.length = 16 + pt.length ∧
      cbcDecrypt B key ct = .ok pt) ∧
    (∃ ct, ctrEncrypt B key pt iv = .ok ct ∧ ct.length = 16 + pt.length ∧
      ctrDecrypt B key ct = .ok pt) := by
  constructor
  · intro hl
    obtain ⟨h1, h2⟩ := cbcDec_cbcEnc B hB key iv pt hiv hl
    refine ⟨iv ++ cbcEncBlocks B key iv pt, ?_, by rw [List.length_append, h2, hiv], ?_⟩
    · unfold cbcEncrypt
      rw [if_neg (by omega), if_neg (by omega)]
    · unfold cbcDecrypt
      rw [if_neg (by omega), if_neg (by rw [List.length_append]; omega), List.drop_left' hiv,
        if_neg (by omega), List.take_left' hiv, h1]
  · obtain ⟨h1, h2⟩ := ctrXor_ctrXor B hB key iv 0 pt
    refine ⟨iv ++ ctrXor B key iv 0 pt, ?_, by rw [List.length_append, h2, hiv], ?_⟩
    · unfold ctrEncrypt
      rw [if_neg (by omega)]
    · unfold ctrDecrypt
      rw [if_neg (by omega), if_neg (by rw [List.length_append]; omega), List.drop_left' hiv,
        List.take_left' hiv, h1]

/-- Exactly when the functions panic. -/
theorem C66_aes_panics (B : Block) (key data iv : Bytes) :
    (cbcEncrypt B key data iv = .panic ↔ key.length ≠ 32 ∨ data.length % 16 ≠ 0) ∧
    (cbcDecrypt B key data = .panic ↔
      key.length ≠ 32 ∨ data.length < 16 ∨ data.length % 16 ≠ 0) ∧
    (ctrEncrypt B key data iv = .panic ↔ key.length ≠ 32) ∧
    (ctrDecrypt B key data = .panic ↔ key.length ≠ 32 ∨ data.length < 16) := by
  have e : ∀ (c : Prop) [Decidable c] (r : Res Unit Bytes),
      (if c then Res.panic else r) = .panic ↔ c ∨ r = .panic := by
    intro c _ r
    by_cases h : c <;> simp [h]
  refine ⟨?_, ?_, ?_, ?_⟩
  · unfold cbcEncrypt; rw [e, e]; simp
  · unfold cbcDecrypt; rw [e, e, e]; simp only [List.length_drop, reduceCtorEq, or_false]; omega
  · unfold ctrEncrypt; rw [e]; simp
  · unfold ctrDecrypt; rw [e, e]; simp

/-- A block cipher that meets the assumptions: xor with the key. -/
def xorBlock : Block :=
  ⟨fun k b => xors b (k ++ List.replicate 16 0), fun k b => xors b (k ++ List.replicate 16 0)⟩

theorem xorBlock_good : xorBlock.Good where
  enc_len := by
    intro k b h
    simp only [xorBlock, xors_length, List.length_append, List.length_replicate]
    omega
  dec_enc := by
    intro k b h
    refine xors_xors _ _ ?_
    rw [List.length_append, List.length_replicate]
    omega

example : ctrDecrypt xorBlock (List.replicate 32 5)
    (match ctrEncrypt xorBlock (List.replicate 32 5) [1, 2, 3] (List.replicate 16 9) with
     | .ok c => c | _ => []) = .ok [1, 2, 3] := by
  obtain ⟨-, ct, h1, -, h2⟩ := C66_aes_round_trip xorBlock xorBlock_good (List.replicate 32 5)
    [1, 2, 3] (List.replicate 16 9) rfl rfl
  rw [h1]; exact h2

end Verif.Cipher

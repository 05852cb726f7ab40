/-
The delays of messages and user IDs: the options of `msg add` and `uid new`, the check, the conversion to 32 bits, and
the way to `muteproto create` (ctrlengine/ctrlengine.go:410-423, 494-507, 695-702, 1025-1035, ctrlengine/msg.go:196-211,
protoengine/protoengine.go:113-151).
-/
import Verif.Ctrl.Deliver
import Verif.Ctrl.TransferProps

set_option autoImplicit false

namespace Verif.Ctrl.Delay
open Verif.Ctrl.Transfer (dec decInt decGo)

/-- The value of a digit. -/
def digit (c : UInt8) : Option Nat :=
  if 48 ≤ c ∧ c ≤ 57 then some (c.toNat - 48)
  else if 97 ≤ c ∧ c ≤ 122 then some (c.toNat - 87)
  else if 65 ≤ c ∧ c ≤ 90 then some (c.toNat - 55)
  else none

/-- The number with these digits in a base. -/
def digitsIn (b : Nat) (s : Bytes) : Option Nat :=
  s.foldl (fun a c => a.bind fun n => (digit c).bind fun d => if d < b then some (n * b + d) else none) (some 0)

/-- `strconv.ParseUint(s, 0, 64)` up to the range: the prefix tells the base. Underscores, which later versions of Go
allow between digits, are errors here. -/
def number (s : Bytes) : Option Nat :=
  match s with
  | 48 :: c :: d :: r =>
    if c = 98 ∨ c = 66 then digitsIn 2 (d :: r)
    else if c = 111 ∨ c = 79 then digitsIn 8 (d :: r)
    else if c = 120 ∨ c = 88 then digitsIn 16 (d :: r)
    else digitsIn 8 (c :: d :: r)
  | 48 :: r => digitsIn 8 r
  | r => Mix.atoiDigits r

/-- The value of an `IntFlag` (package flag: `strconv.ParseInt(s, 0, 64)`). -/
def intFlag (s : Bytes) : Option Int :=
  match s with
  | 43 :: r => (number r).bind fun n => if n < 2 ^ 63 then some n else none
  | 45 :: r => (number r).bind fun n => if n ≤ 2 ^ 63 then some (-n) else none
  | r => (number r).bind fun n => if n < 2 ^ 63 then some n else none

/-- The conversion `int32(n)`. -/
def toI32 (n : Int) : Int := (n + 2147483648) % 4294967296 - 2147483648

/-- `checkDelayArgs` (ctrlengine.go:410-423) with `def.MinMinDelay` and `def.MinMaxDelay` (def.go:174-181). -/
def checkDelayArgs (nodelaycheck : Bool) (min max : Int) : Bool :=
  nodelaycheck || (!decide (min < 60) && !decide (max < 61) && !decide (max ≤ min))

/-- The delays that `msg add` and `uid new` store, if they accept the options; the defaults are 120 and 300 (def.go:168-173,
ctrlengine.go:494-507, 695-702, 1025-1035). -/
def delays (nodelaycheck : Bool) (min max : Option Bytes) : Option (Int × Int) := do
  let a ← min.elim (some 120) intFlag
  let b ← max.elim (some 300) intFlag
  if checkDelayArgs nodelaycheck a b then some (toI32 a, toI32 b) else none

/-- The delays that `muteproto create` works with when it is called by `muteprotoCreate` (msg.go:196-211, protoengine.go:148-149). -/
def protoDelays (min max : Int) : Option (Int × Int) := do
  let a ← intFlag (decInt min)
  let b ← intFlag (decInt max)
  return (toI32 a, toI32 b)

/-! ### proofs -/

theorem toI32_id {n : Int} (h : Mix.I32 n) : toI32 n = n := by
  unfold Mix.I32 at h
  unfold toI32
  omega

theorem toI32_range (n : Int) : Mix.I32 (toI32 n) := by
  unfold Mix.I32 toI32
  omega

theorem decGo_head (k n : Nat) (hn : n < k) (h : 0 < n) : (decGo k n).head? ≠ some 48 := by
  induction k generalizing n with
  | zero => omega
  | succ k ih =>
    unfold decGo
    split
    · next h9 =>
      simp only [List.head?_cons, ne_eq, Option.some.injEq]
      intro e
      have e2 : (UInt8.ofNat (48 + n)).toNat = 48 := by rw [e]; rfl
      rw [UInt8.toNat_ofNat'] at e2
      omega
    · next h9 =>
      rw [List.head?_append]
      have hd := ih (n / 10) (by omega) (by omega)
      have hne : decGo k (n / 10) ≠ [] := by
        cases k with
        | zero => omega
        | succ k =>
          unfold decGo
          split <;> simp
      cases hx : decGo k (n / 10) with
      | nil => exact absurd hx hne
      | cons c cs => rw [hx] at hd; simpa using hd

theorem number_dec (n : Nat) : number (dec n) = some n := by
  by_cases h0 : n = 0
  · subst h0; decide +kernel
  · have hh : (dec n).head? ≠ some 48 := decGo_head _ n (by omega) (by omega)
    have ha := Transfer.atoiDigits_dec n
    unfold number
    split
    · next heq => rw [heq] at hh; exact absurd rfl hh
    · next heq => rw [heq] at hh; exact absurd rfl hh
    · exact ha

theorem intFlag_decInt {t : Int} (h : -2 ^ 63 ≤ t ∧ t < 2 ^ 63) : intFlag (decInt t) = some t := by
  unfold decInt
  split
  · next ht =>
    unfold intFlag
    simp only [number_dec, Option.bind_some]
    rw [if_pos (by omega)]
    congr 1; omega
  · next ht =>
    rcases hd : dec t.toNat with _ | ⟨c, cs⟩
    · exact absurd hd (Transfer.dec_ne _)
    have hc := Transfer.dec_chars t.toNat c (by rw [hd]; exact List.mem_cons_self ..)
    unfold intFlag
    split
    · next heq => injection heq with h1 _; subst h1; exact absurd hc.1 (by decide)
    · next heq => injection heq with h1 _; subst h1; exact absurd hc.1 (by decide)
    · rw [← hd, number_dec, Option.bind_some, if_pos (by omega)]
      congr 1; omega

/-! ### C127 -/

/-- C127 (partial: delays below 2^31 seconds): delays that are accepted are stored as they were given, the minimum is at
least a minute and less than the maximum. -/
theorem C127_stored_partial (min max : Bytes) (a b x y : Int) (ha : intFlag min = some a) (hb : intFlag max = some b)
    (h : delays false (some min) (some max) = some (x, y)) (hs : b < 2 ^ 31) : x = a ∧ y = b ∧ 60 ≤ x ∧ x < y := by
  simp only [delays, Option.elim_some, ha, hb, Option.bind_eq_bind, Option.bind_some, checkDelayArgs, Bool.false_or] at h
  split at h
  · next hc =>
    simp only [Bool.and_eq_true, Bool.not_eq_true', decide_eq_false_iff_not] at hc
    simp only [Option.some.injEq, Prod.mk.injEq] at h
    obtain ⟨h1, h2⟩ := h
    rw [toI32_id (by unfold Mix.I32; omega)] at h1 h2
    omega
  · cases h

/-- C127: whatever is accepted are delays that fit their columns; without options they are the defaults. -/
theorem C127_fits (nocheck : Bool) (min max : Option Bytes) (x y : Int) (h : delays nocheck min max = some (x, y)) :
    Mix.I32 x ∧ Mix.I32 y ∧ (min = none → x = 120) ∧ (max = none → y = 300) := by
  simp only [delays, Option.bind_eq_bind, Option.bind_eq_some_iff] at h
  obtain ⟨a, ha, b, hb, h⟩ := h
  split at h
  · simp only [Option.some.injEq, Prod.mk.injEq] at h
    obtain ⟨rfl, rfl⟩ := h
    refine ⟨toI32_range a, toI32_range b, ?_, ?_⟩
    · rintro rfl
      injection ha with ha
      subst ha; rfl
    · rintro rfl
      injection hb with hb
      subst hb; rfl
  · cases h

/-- C127: too short or inverted delays are refused. -/
theorem C127_refused (min max : Bytes) (a b : Int) (ha : intFlag min = some a) (hb : intFlag max = some b) (h : a < 60 ∨ b ≤ a) :
    delays false (some min) (some max) = none := by
  simp only [delays, Option.elim_some, ha, hb, Option.bind_eq_bind, Option.bind_some, checkDelayArgs, Bool.false_or]
  rw [if_neg]
  simp only [Bool.and_eq_true, Bool.not_eq_true', decide_eq_false_iff_not]
  omega

/-- C127, violated: delays above 2^31 pass the check and are stored as others, which it would refuse: 4294967296 and
4294967297 become 0 and 1, so the mix does not delay the message at all. -/
theorem C127_wrap_violated :
    delays false (some (decInt 4294967296)) (some (decInt 4294967297)) = some (0, 1) ∧ checkDelayArgs false 0 1 = false ∧
    delays false (some (decInt 60)) (some (decInt 2147483648)) = some (60, -2147483648) := by
  simp only [delays, Option.elim_some, intFlag_decInt (show -2 ^ 63 ≤ (4294967296 : Int) ∧ (4294967296 : Int) < 2 ^ 63 by omega),
    intFlag_decInt (show -2 ^ 63 ≤ (4294967297 : Int) ∧ (4294967297 : Int) < 2 ^ 63 by omega),
    intFlag_decInt (show -2 ^ 63 ≤ (60 : Int) ∧ (60 : Int) < 2 ^ 63 by omega),
    intFlag_decInt (show -2 ^ 63 ≤ (2147483648 : Int) ∧ (2147483648 : Int) < 2 ^ 63 by omega)]
  decide +kernel

/-- C127: `muteproto create` works with the delays the engine stored. -/
theorem C127_create (x y : Int) (hx : Mix.I32 x) (hy : Mix.I32 y) : protoDelays x y = some (x, y) := by
  have h1 : intFlag (decInt x) = some x := intFlag_decInt (by unfold Mix.I32 at hx; omega)
  have h2 : intFlag (decInt y) = some y := intFlag_decInt (by unfold Mix.I32 at hy; omega)
  simp only [protoDelays, h1, h2, Option.bind_eq_bind, Option.bind_some, toI32_id hx, toI32_id hy]
  rfl

/-- C127: from the sender to the mix. If a message is marked as sent, then a mail server accepted a mail to a mix that tells
the mix to hold the message for a time between the delays stored with the message; they went to `muteproto` as texts. -/
theorem C127_sent (W : Deliver.World) (I : Msgdb.Ids) (s : St) (h : W.Hist I s) (i : Nat) (m : Msgdb.Message) (hm : (i, m) ∈ s.db.messages)
    (hs : m.sent = true) (hx : Mix.I32 m.minDelay) (hy : Mix.I32 m.maxDelay) :
    ∃ x y token clock na plain revoke eph nonce relay mix, protoDelays m.minDelay m.maxDelay = some (x, y) ∧ x = m.minDelay ∧ y = m.maxDelay ∧
      Mix.newRelay W.P clock ⟨0, x, y, some token, [], none⟩ na plain revoke eph nonce = .ok (relay, mix) ∧
      ∃ E mo, (Mix.deliver E mo).2 = ⟨some (mix, W.sender, some (W.head mix ++ Util.writeMailBody relay)), true, none⟩ := by
  obtain ⟨_, _, plain, na, -, -, -, clock, token, revoke, eph, nonce, relay, mix, h1, h2⟩ := Deliver.C120_sent_is_sent W I s h i m hm hs
  exact ⟨_, _, token, clock, na, plain, revoke, eph, nonce, relay, mix, C127_create _ _ hx hy, rfl, rfl, h1, h2⟩

/-- Delays in decimal, hexadecimal and octal; the options of a typical call. -/
example : intFlag "90".toUTF8.data.toList = some 90 ∧ intFlag "0x5a".toUTF8.data.toList = some 90 ∧ intFlag "0132".toUTF8.data.toList = some 90 ∧
    intFlag "-1".toUTF8.data.toList = some (-1) ∧ intFlag "9 ".toUTF8.data.toList = none ∧ intFlag [] = none ∧
    delays false (some "90".toUTF8.data.toList) (some "120".toUTF8.data.toList) = some (90, 120) ∧ delays false none none = some (120, 300) ∧
    delays false (some "60".toUTF8.data.toList) (some "60".toUTF8.data.toList) = none := by
  decide +kernel

end Verif.Ctrl.Delay

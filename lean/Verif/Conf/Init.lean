/-
The settings of a program: `InitMute` (def/def.go).
-/
import Verif.Conf.Model
import Verif.Mix.Client

namespace Verif.Conf
open Verif.Mix (fix32)

/-- The package variables that `InitMute` sets; none is a nil pointer, slice or map. The clean-up
time of keys is left out. -/
structure Settings where
  rpcPort : Bytes
  mixAddress : Bytes
  accountServer : Bytes
  sender : Bytes
  walletURL : Bytes
  lookupURL : Bytes
  guardURL : Bytes
  trustRoot : Option Bytes
  caCert : Option Bytes
  map : Option SMap
  owner : Option Bytes
  usage : Bytes
  deriving DecidableEq, Repr

/-- The keys of the configuration map (def.go:34-106), as bytes. -/
def keyPort : Bytes := "mixclient.RPCPort".toUTF8.data.toList
def keyMix : Bytes := "mixclient.MixAddress".toUTF8.data.toList
def keyAccount : Bytes := "mixclient.AccountServer".toUTF8.data.toList
def keySender : Bytes := "mixclient.Sender".toUTF8.data.toList
def keyWallet : Bytes := "walletrpc.ServiceURL".toUTF8.data.toList
def keyLookup : Bytes := "keylookup.ServiceURL".toUTF8.data.toList
def keyGuard : Bytes := "guardrpc.ServiceURL".toUTF8.data.toList
def keyTrust : Bytes := "serviceguard.TrustRoot".toUTF8.data.toList
def keyDelay : Bytes := "mix.MaxDelay".toUTF8.data.toList
def keyOwner : Bytes := "muteaccd.owner".toUTF8.data.toList
def keyUsage : Bytes := "muteaccd.usage".toUTF8.data.toList

/-- A decimal number, most significant digit first; none for other characters or no digit. -/
def digits (s : Bytes) : Option Nat :=
  if s = [] then none
  else s.foldl (fun a c => a.bind fun n => if 48 ≤ c ∧ c ≤ 57 then some (n * 10 + (c.toNat - 48)) else none) (some 0)

/-- `strconv.ParseUint(s, 10, 64)`. -/
def parseUint (s : Bytes) : Option Nat := (digits s).filter (· < 18446744073709551616)

/-- `decodeED25519PubKey` (def.go:210-218): shorter keys are filled up, longer ones cut. -/
def decodeKey (s : Bytes) : Option Bytes := (Mix.unhex s).map fix32

/-- `InitMute` (def.go:31-110): the settings, changed up to the first error, and whether there was
none. A missing entry leaves an empty string in its variable, but not in `MixAddress`. -/
def initMute (g : Settings) (c : Config) : Settings × Bool :=
  let m := c.map.getD []
  let g := match m.lookup keyPort with
    | some p => if p ≠ [] then { g with rpcPort := p } else g
    | none => g
  match m.lookup keyMix with
  | none => (g, false)
  | some v =>
  let g := { g with mixAddress := v }
  match m.lookup keyAccount with
  | none => ({ g with accountServer := [] }, false)
  | some v =>
  let g := { g with accountServer := v }
  match m.lookup keySender with
  | none => ({ g with sender := [] }, false)
  | some v =>
  let g := { g with sender := v }
  match m.lookup keyWallet with
  | none => ({ g with walletURL := [] }, false)
  | some v =>
  let g := { g with walletURL := v }
  match m.lookup keyLookup with
  | none => ({ g with lookupURL := [] }, false)
  | some v =>
  let g := { g with lookupURL := v }
  match m.lookup keyGuard with
  | none => ({ g with guardURL := [] }, false)
  | some v =>
  let g := { g with guardURL := v }
  match m.lookup keyTrust with
  | none => (g, false)
  | some v =>
  match decodeKey v with
  | none => ({ g with trustRoot := none }, false)
  | some k =>
  let g := { g with trustRoot := some k }
  match m.lookup keyDelay with
  | none => (g, false)
  | some v =>
  match parseUint v with
  | none => (g, false)
  | some _ =>
  let g := { g with caCert := c.caCert, map := c.map }
  match m.lookup keyOwner with
  | none => (g, false)
  | some v =>
  match decodeKey v with
  | none => ({ g with owner := none }, false)
  | some k =>
  let g := { g with owner := some k }
  match m.lookup keyUsage with
  | none => ({ g with usage := [] }, false)
  | some v => ({ g with usage := v }, true)

/-! ### specification -/

/-- A configuration from which a program can be initialised: all entries are there, keys are in
hexadecimal and the delay is a number. -/
def Usable (c : Config) : Prop :=
  (∀ k ∈ [keyMix, keyAccount, keySender, keyWallet, keyLookup, keyGuard, keyUsage], ∃ v, (c.map.getD []).lookup k = some v) ∧
  (∀ k ∈ [keyTrust, keyOwner], ∃ v b, (c.map.getD []).lookup k = some v ∧ Mix.unhex v = some b) ∧
  ∃ v n, (c.map.getD []).lookup keyDelay = some v ∧ parseUint v = some n

/-- The settings that belong to a configuration. The port is optional. -/
def settingsOf (port : Bytes) (c : Config) : Settings :=
  let get k := ((c.map.getD []).lookup k).getD []
  { rpcPort := if get keyPort = [] then port else get keyPort
    mixAddress := get keyMix
    accountServer := get keyAccount
    sender := get keySender
    walletURL := get keyWallet
    lookupURL := get keyLookup
    guardURL := get keyGuard
    trustRoot := decodeKey (get keyTrust)
    caCert := c.caCert
    map := c.map
    owner := decodeKey (get keyOwner)
    usage := get keyUsage }

/-- `InitMute` succeeds exactly for usable configurations, and sets what belongs to them. -/
theorem initMute_spec (g : Settings) (c : Config) :
    ((initMute g c).2 = true ↔ Usable c) ∧ ((initMute g c).2 = true → (initMute g c).1 = settingsOf g.rpcPort c) := by
  unfold initMute Usable settingsOf decodeKey
  simp only []
  generalize c.map.getD [] = m
  cases h1 : m.lookup keyMix with
  | none => simp [h1]
  | some v1 =>
  cases h2 : m.lookup keyAccount with
  | none => simp [h1, h2]
  | some v2 =>
  cases h3 : m.lookup keySender with
  | none => simp [h1, h2, h3]
  | some v3 =>
  cases h4 : m.lookup keyWallet with
  | none => simp [h1, h2, h3, h4]
  | some v4 =>
  cases h5 : m.lookup keyLookup with
  | none => simp [h1, h2, h3, h4, h5]
  | some v5 =>
  cases h6 : m.lookup keyGuard with
  | none => simp [h1, h2, h3, h4, h5, h6]
  | some v6 =>
  cases h7 : m.lookup keyTrust with
  | none => simp [h1, h2, h3, h4, h5, h6, h7]
  | some v7 =>
  cases h8 : Mix.unhex v7 with
  | none => simp [h1, h2, h3, h4, h5, h6, h7, h8]
  | some k7 =>
  cases h9 : m.lookup keyDelay with
  | none => simp [h1, h2, h3, h4, h5, h6, h7, h8, h9]
  | some v9 =>
  cases h10 : parseUint v9 with
  | none => simp [h1, h2, h3, h4, h5, h6, h7, h8, h9, h10]
  | some v10 =>
  cases h11 : m.lookup keyOwner with
  | none => simp [h1, h2, h3, h4, h5, h6, h7, h8, h9, h10, h11]
  | some v11 =>
  cases h12 : Mix.unhex v11 with
  | none => simp [h1, h2, h3, h4, h5, h6, h7, h8, h9, h10, h11, h12]
  | some v12 =>
  cases h13 : m.lookup keyUsage with
  | none => simp [h1, h2, h3, h4, h5, h6, h7, h8, h9, h10, h11, h12, h13]
  | some v13 =>
  cases h14 : m.lookup keyPort with
  | none => simp [h1, h2, h3, h4, h5, h6, h7, h8, h9, h10, h11, h12, h13, h14]
  | some v14 =>
    by_cases h15 : v14 = [] <;> simp [h1, h2, h3, h4, h5, h6, h7, h8, h9, h10, h11, h12, h13, h14, h15]

/-! ### decimal numbers -/

/-- A decimal numeral and its value: one or more digits. -/
inductive Numeral : Bytes → Nat → Prop
  | digit (d : Nat) : d < 10 → Numeral [UInt8.ofNat (48 + d)] d
  | snoc (s : Bytes) (n d : Nat) : Numeral s n → d < 10 → Numeral (s ++ [UInt8.ofNat (48 + d)]) (10 * n + d)

/-- What `digits` does with a character. -/
def digitStep (a : Option Nat) (c : UInt8) : Option Nat :=
  a.bind fun n => if 48 ≤ c ∧ c ≤ 57 then some (n * 10 + (c.toNat - 48)) else none

theorem digitStep_digit (n d : Nat) (h : d < 10) : digitStep (some n) (UInt8.ofNat (48 + d)) = some (n * 10 + d) := by
  have h1 : (UInt8.ofNat (48 + d)).toNat = 48 + d := by simp only [UInt8.toNat_ofNat']; omega
  have h2 : 48 ≤ UInt8.ofNat (48 + d) := by rw [UInt8.le_iff_toNat_le, h1]; exact Nat.le_add_right _ _
  have h3 : UInt8.ofNat (48 + d) ≤ 57 := by rw [UInt8.le_iff_toNat_le, h1]; show 48 + d ≤ 57; omega
  simp only [digitStep, Option.bind_some, h2, h3, and_self, if_true, h1]
  congr 1; omega

theorem digits_eq {s : Bytes} (h : s ≠ []) : digits s = s.foldl digitStep (some 0) := by
  unfold digits
  rw [if_neg h]; rfl

theorem digits_numeral {s : Bytes} {n : Nat} (h : Numeral s n) : digits s = some n := by
  induction h with
  | digit d hd =>
    rw [digits_eq (by simp)]
    simp only [List.foldl_cons, List.foldl_nil, digitStep_digit 0 d hd]
    congr 1; omega
  | snoc s n d hs hd ih =>
    have hne : s ≠ [] := by cases hs <;> simp
    rw [digits_eq (by simp), List.foldl_append, ← digits_eq hne, ih]
    simp only [List.foldl_cons, List.foldl_nil, digitStep_digit n d hd]
    congr 1; omega

theorem numeral_digits (k : Nat) (s : Bytes) (n : Nat) (hk : s.length = k + 1) (h : digits s = some n) : Numeral s n := by
  induction k generalizing s n with
  | zero =>
    obtain ⟨c, rfl⟩ := List.length_eq_one_iff.1 hk
    rw [digits_eq (by simp)] at h
    simp only [List.foldl_cons, List.foldl_nil, digitStep, Option.bind_some] at h
    split at h
    · next hc =>
      have h1 := UInt8.le_iff_toNat_le.1 hc.1
      have h2 := UInt8.le_iff_toNat_le.1 hc.2
      injection h with h
      have h3 : (48 : UInt8).toNat = 48 := rfl
      have h4 : (57 : UInt8).toNat = 57 := rfl
      have e : c = UInt8.ofNat (48 + n) := by
        apply UInt8.toNat_inj.1
        simp only [UInt8.toNat_ofNat']; omega
      rw [e]
      exact .digit n (by omega)
    · cases h
  | succ k ih =>
    have hne : s ≠ [] := by intro e; rw [e] at hk; cases hk
    obtain ⟨t, c, rfl⟩ : ∃ t c, s = t ++ [c] := ⟨s.dropLast, s.getLast hne, (List.dropLast_concat_getLast hne).symm⟩
    have ht : t.length = k + 1 := by simp only [List.length_append, List.length_cons, List.length_nil] at hk; omega
    have htn : t ≠ [] := by intro e; rw [e] at ht; cases ht
    rw [digits_eq (by simp), List.foldl_append, ← digits_eq htn] at h
    simp only [List.foldl_cons, List.foldl_nil] at h
    cases hd : digits t with
    | none => rw [hd] at h; cases h
    | some m =>
      rw [hd] at h
      simp only [digitStep, Option.bind_some] at h
      split at h
      · next hc =>
        have h1 := UInt8.le_iff_toNat_le.1 hc.1
        have h2 := UInt8.le_iff_toNat_le.1 hc.2
        injection h with h
        have h3 : (48 : UInt8).toNat = 48 := rfl
        have h4 : (57 : UInt8).toNat = 57 := rfl
        have e : c = UInt8.ofNat (48 + (c.toNat - 48)) := by
          apply UInt8.toNat_inj.1
          simp only [UInt8.toNat_ofNat']; omega
        rw [e, show n = 10 * m + (c.toNat - 48) by omega]
        exact .snoc t m _ (ih t m ht hd) (by omega)
      · cases h

/-- C115: the maximal delay of a usable configuration is exactly a decimal number below 2^64. -/
theorem C115_max_delay (s : Bytes) (n : Nat) : parseUint s = some n ↔ Numeral s n ∧ n < 2 ^ 64 := by
  unfold parseUint
  rw [Option.filter_eq_some_iff]
  simp only [decide_eq_true_eq]
  constructor
  · rintro ⟨h1, h2⟩
    refine ⟨?_, h2⟩
    cases s with
    | nil => cases h1
    | cons c t => exact numeral_digits t.length _ n rfl h1
  · rintro ⟨h1, h2⟩
    exact ⟨digits_numeral h1, h2⟩

example : Numeral [52, 48, 57] 409 := .snoc [52, 48] 40 9 (.snoc [52] 4 0 (.digit 4 (by omega)) (by omega)) (by omega)

end Verif.Conf

/-
Key entries with the keys they hold in memory (uid/keyentry.go, cipher/curve25519.go,
cipher/ed25519.go): C135.
-/
import Verif.Crypt.Toy

set_option autoImplicit false

namespace Verif.Uid.Keys

open Verif Verif.Uid

/-- "ECDHE25519" and "ED25519". -/
def ecdhe : Str := lit "ECDHE25519"
def ed25519 : Str := lit "ED25519"

/-- `copy` into an array of `n` bytes. -/
def arr (n : Nat) (b : Bytes) : Bytes := b.take n ++ List.replicate (n - b.length) 0

/-- `Curve25519Key` and `Ed25519Key` (curve25519.go:16-19, ed25519.go:15-18): public and private key; `none` is a nil pointer
or a nil slice. -/
structure Pair where
  pub : Option Bytes
  priv : Option Bytes
  deriving DecidableEq, Repr

/-- `KeyEntry` (keyentry.go:29-38) with the keys in memory; a pair that is `none` is a nil pointer. -/
structure Held where
  entry : KeyEntry
  curve : Option Pair
  ed : Option Pair
  pubSet : Bool
  privSet : Bool
  deriving DecidableEq, Repr

/-- `NewJSONKeyEntry` (keyentry.go:132-138) for a text that decodes to `e`: no key is set. -/
def loaded (e : KeyEntry) : Held := ⟨e, none, none, false, false⟩

/-- `KeyEntryEqual` (keyentry.go:42-59); the test of the pointers is an optimisation. -/
def equal (a b : KeyEntry) : Bool :=
  if a.ciphersuite ≠ b.ciphersuite then false
  else if a.function ≠ b.function then false
  else if a.hash ≠ b.hash then false
  else if a.pubkey ≠ b.pubkey then false
  else true

/-- `SetPublicKey` (curve25519.go:45-52, ed25519.go:45-54): a key of another length is refused. -/
def Pair.setPub (p : Pair) (key : Bytes) : Pair := if key.length ≠ 32 then p else { p with pub := some key }

/-- `SetPrivateKey` (curve25519.go:56-63 with 32 bytes, ed25519.go:58-67 with 64). -/
def Pair.setPriv (n : Nat) (p : Pair) (key : Bytes) : Option Pair := if key.length ≠ n then none else some { p with priv := some key }

/-- The pair, made if there is none (keyentry.go:154-156, 159-161, 222-224, 227-229). -/
def orNew (p : Option Pair) : Pair := p.getD ⟨none, none⟩

/-- The first part of `PublicKey32` (keyentry.go:147-165): the keys are set from PUBKEY. The errors of `SetPublicKey` are
dropped. `none`: the panic of the decoding. -/
def Held.readPub (k : Held) : Option Held :=
  if k.pubSet then some k
  else match Base64.decode k.entry.pubkey with
    | none => none
    | some b =>
      if k.entry.function = ecdhe then some { k with curve := some ((orNew k.curve).setPub b), pubSet := true }
      else if k.entry.function = ed25519 then some { k with ed := some ((orNew k.ed).setPub b), pubSet := true }
      else some { k with pubSet := true }

/-- The second part of `PublicKey32` (keyentry.go:166-173): the result is a pointer, `some none` is nil; `none`: a panic. -/
def Held.public (k : Held) : Option (Option Bytes) :=
  if k.entry.function = ecdhe then k.curve.map (·.pub)
  else if k.entry.function = ed25519 then k.ed.map fun p => some (arr 32 (p.pub.getD []))
  else none

/-- `PublicKey32` (keyentry.go:146-174): the entry afterwards, and the result. -/
def Held.publicKey32 (k : Held) : Held × Option (Option Bytes) :=
  match k.readPub with
  | none => (k, none)
  | some k' => (k', k'.public)

/-- `PrivateKey32` (keyentry.go:177-187): `some none` is a nil pointer, `none` a panic. -/
def Held.privateKey32 (k : Held) : Option (Option Bytes) :=
  if k.privSet = false then none
  else if k.entry.function = ecdhe then k.curve.map (·.priv)
  else none

/-- `PrivateKey64` (keyentry.go:190-200). -/
def Held.privateKey64 (k : Held) : Option Bytes :=
  if k.privSet = false then none
  else if k.entry.function = ed25519 then k.ed.map fun p => arr 64 (p.priv.getD [])
  else none

/-- `PrivateKey` (keyentry.go:203-215); slicing a nil pointer panics. -/
def Held.privateKey (k : Held) : Option Str :=
  if k.privSet = false then none
  else if k.entry.function = ecdhe then (k.curve.bind (·.priv)).map Base64.encode
  else if k.entry.function = ed25519 then k.ed.map fun p => Base64.encode (arr 64 (p.priv.getD []))
  else none

/-- `setPrivateKey` (keyentry.go:218-238): the entry afterwards, and whether it succeeded. -/
def Held.setKey (k : Held) (key : Bytes) : Held × Bool :=
  if k.entry.function = ecdhe then
    match (orNew k.curve).setPriv 32 key with
    | none => ({ k with curve := some (orNew k.curve) }, false)
    | some p => ({ k with curve := some p, privSet := true }, true)
  else if k.entry.function = ed25519 then
    match (orNew k.ed).setPriv 64 key with
    | none => ({ k with ed := some (orNew k.ed) }, false)
    | some p => ({ k with ed := some p, privSet := true }, true)
  else (k, false)

/-- `SetPrivateKey` (keyentry.go:242-248). -/
def Held.setPrivateKey (k : Held) (privkey : Str) : Held × Bool :=
  match Base64.decode privkey with
  | none => (k, false)
  | some key => k.setKey key

/-- `InitDHKey` (keyentry.go:98-111) with `Curve25519Generate` (curve25519.go:22-31); `none` is a failing random reader: the
assignment then clears the old key. -/
def Held.initDH (P : Prims) (k : Held) (rand : Option Bytes) : Held × Bool :=
  match rand with
  | none => ({ k with entry := { k.entry with ciphersuite := defaultSuite, function := ecdhe }, curve := none }, false)
  | some r =>
    ({ k with
        entry := ⟨defaultSuite, ecdhe, Base64.encode (P.sha512 (P.dhPub r)), Base64.encode (P.dhPub r)⟩
        curve := some ⟨some (P.dhPub r), some r⟩, pubSet := true, privSet := true }, true)

/-- `initSigKey` (keyentry.go:115-128) with `Ed25519Generate` (ed25519.go:21-27). -/
def Held.initSig (P : Prims) (k : Held) (rand : Option Bytes) : Held × Bool :=
  match rand with
  | none => ({ k with entry := { k.entry with ciphersuite := defaultSuite, function := ed25519 }, ed := none }, false)
  | some r =>
    let priv := P.edPriv r
    ({ k with
        entry := ⟨defaultSuite, ed25519, Base64.encode (P.sha512 (P.edPub priv)), Base64.encode (P.edPub priv)⟩
        ed := some ⟨some (P.edPub priv), some priv⟩, pubSet := true, privSet := true }, true)

/-- The calls that change an entry. -/
inductive Op where
  | initDH (rand : Option Bytes)
  | initSig (rand : Option Bytes)
  | setPrivateKey (privkey : Str)
  | publicKey32
  deriving DecidableEq, Repr

def Held.step (P : Prims) (k : Held) : Op → Held
  | .initDH r => (k.initDH P r).1
  | .initSig r => (k.initSig P r).1
  | .setPrivateKey s => (k.setPrivateKey s).1
  | .publicKey32 => k.publicKey32.1

def Held.run (P : Prims) (k : Held) (ops : List Op) : Held := ops.foldl (Held.step P) k

/-! ### the specification -/

/-- The size of a private key for a function; only the two functions have keys. -/
def keySize (function : Str) : Option Nat :=
  if function = ecdhe then some 32 else if function = ed25519 then some 64 else none

/-- What an entry stands for: the exported fields, and the private key that was last accepted for it. -/
structure View where
  entry : KeyEntry
  priv : Option Bytes
  deriving DecidableEq, Repr

/-- A new key replaces everything; a private key is accepted if it is the encoding of as many bytes as the function asks for;
reading the public key changes nothing. -/
def View.step (P : Prims) (v : View) : Op → View
  | .initDH (some r) => ⟨⟨defaultSuite, ecdhe, Base64.encode (P.sha512 (P.dhPub r)), Base64.encode (P.dhPub r)⟩, some r⟩
  | .initSig (some r) =>
    ⟨⟨defaultSuite, ed25519, Base64.encode (P.sha512 (P.edPub (P.edPriv r))), Base64.encode (P.edPub (P.edPriv r))⟩, some (P.edPriv r)⟩
  | .setPrivateKey s =>
    match Base64.decode s with
    | some key => if keySize v.entry.function = some key.length then { v with priv := some key } else v
    | none => v
  | _ => v

def View.run (P : Prims) (v : View) (ops : List Op) : View := ops.foldl (View.step P) v

/-- The random reader does not fail. -/
def Op.Random : Op → Prop
  | .initDH r => ∃ b, r = some b ∧ b.length = 32
  | .initSig r => ∃ b, r = some b
  | _ => True

/-! ### proofs -/

theorem ne_functions : ecdhe ≠ ed25519 := by decide

theorem arr_eq {n : Nat} {b : Bytes} (h : b.length = n) : arr n b = b := by
  unfold arr
  rw [h, Nat.sub_self, List.replicate_zero, List.append_nil, ← h, List.take_length]

theorem setPub_ok (p : Pair) {b : Bytes} (h : b.length = 32) : p.setPub b = { p with pub := some b } := if_neg fun hc => hc h

theorem setPriv_ok (p : Pair) {n : Nat} {b : Bytes} (h : b.length = n) : p.setPriv n b = some { p with priv := some b } := if_neg fun hc => hc h

theorem setKey_dh (e : KeyEntry) (hf : e.function = ecdhe) {b : Bytes} (h : b.length = 32) :
    (loaded e).setKey b = (⟨e, some ⟨none, some b⟩, none, false, true⟩, true) := by
  unfold Held.setKey
  rw [setPriv_ok _ h, if_pos (show (loaded e).entry.function = ecdhe from hf)]
  rfl

theorem setKey_sig (e : KeyEntry) (hf : e.function = ed25519) {b : Bytes} (h : b.length = 64) :
    (loaded e).setKey b = (⟨e, none, some ⟨none, some b⟩, false, true⟩, true) := by
  unfold Held.setKey
  rw [show (loaded e).entry.function = ed25519 from hf, if_neg (Ne.symm ne_functions), if_pos rfl, setPriv_ok _ h]
  rfl

/-- The keys in memory are those of the view. -/
structure Inv (k : Held) (v : View) : Prop where
  entry : k.entry = v.entry
  flag : k.privSet = v.priv.isSome
  size : ∀ b, v.priv = some b → keySize v.entry.function = some b.length
  dhPriv : v.entry.function = ecdhe → ∀ b, v.priv = some b → ∃ p, k.curve = some p ∧ p.priv = some b
  sigPriv : v.entry.function = ed25519 → ∀ b, v.priv = some b → ∃ p, k.ed = some p ∧ p.priv = some b
  dhPub : v.entry.function = ecdhe → k.pubSet = true → ∃ b p, Base64.decode v.entry.pubkey = some b ∧ k.curve = some p ∧ (b.length = 32 → p.pub = some b)
  sigPub : v.entry.function = ed25519 → k.pubSet = true → ∃ b p, Base64.decode v.entry.pubkey = some b ∧ k.ed = some p ∧ (b.length = 32 → p.pub = some b)

theorem inv_loaded (e : KeyEntry) : Inv (loaded e) ⟨e, none⟩ := ⟨rfl, rfl, nofun, fun _ => nofun, fun _ => nofun, fun _ => nofun, fun _ => nofun⟩

theorem keySize_dh : keySize ecdhe = some 32 := if_pos rfl
theorem keySize_sig : keySize ed25519 = some 64 := by
  unfold keySize
  rw [if_neg (Ne.symm ne_functions), if_pos rfl]

theorem inv_step (P : Prims) (hed : ∀ r, (P.edPriv r).length = 64) {k : Held} {v : View} (h : Inv k v) (op : Op) (ho : op.Random) :
    Inv (k.step P op) (v.step P op) := by
  cases op with
  | initDH r =>
    obtain ⟨b, rfl, hb⟩ := ho
    refine ⟨rfl, rfl, ?_, ?_, ?_, ?_, ?_⟩
    · intro x hx
      cases hx
      show keySize ecdhe = _
      rw [keySize_dh, hb]
    · intro _ x hx
      cases hx
      exact ⟨_, rfl, rfl⟩
    · intro hf
      exact absurd hf ne_functions
    · intro _ _
      exact ⟨P.dhPub b, _, Base64.decode_encode _, rfl, fun _ => rfl⟩
    · intro hf
      exact absurd hf ne_functions
  | initSig r =>
    obtain ⟨b, rfl⟩ := ho
    refine ⟨rfl, rfl, ?_, ?_, ?_, ?_, ?_⟩
    · intro x hx
      cases hx
      show keySize ed25519 = _
      rw [keySize_sig, hed]
    · intro hf
      exact absurd hf (Ne.symm ne_functions)
    · intro _ x hx
      cases hx
      exact ⟨_, rfl, rfl⟩
    · intro hf
      exact absurd hf (Ne.symm ne_functions)
    · intro _ _
      exact ⟨P.edPub (P.edPriv b), _, Base64.decode_encode _, rfl, fun _ => rfl⟩
  | setPrivateKey s =>
    show Inv (k.setPrivateKey s).1 (match Base64.decode s with
      | some key => if keySize v.entry.function = some key.length then { v with priv := some key } else v
      | none => v)
    unfold Held.setPrivateKey
    cases Base64.decode s with
    | none => exact h
    | some key =>
      dsimp only
      unfold Held.setKey
      rw [h.entry]
      by_cases hd : v.entry.function = ecdhe
      · rw [if_pos hd, hd, keySize_dh]
        unfold Pair.setPriv
        by_cases hl : key.length = 32
        · rw [if_neg (fun hc => hc hl), if_pos (by rw [hl])]
          refine ⟨rfl, rfl, ?_, ?_, ?_, ?_, ?_⟩
          · intro x hx; cases hx; rw [hd, keySize_dh, hl]
          · intro _ x hx; cases hx; exact ⟨_, rfl, rfl⟩
          · intro hf; rw [hd] at hf; exact absurd hf ne_functions
          · intro _ hp
            obtain ⟨b, p, h1, h2, h3⟩ := h.dhPub hd hp
            exact ⟨b, _, h1, rfl, fun hb => by rw [h2]; exact h3 hb⟩
          · intro hf; rw [hd] at hf; exact absurd hf ne_functions
        · rw [if_pos hl, if_neg (fun hc => hl (Option.some.inj hc).symm)]
          refine ⟨rfl, h.flag, h.size, ?_, ?_, ?_, ?_⟩
          · intro _ x hx
            obtain ⟨p, h1, h2⟩ := h.dhPriv hd x hx
            exact ⟨_, rfl, by rw [h1]; exact h2⟩
          · intro hf; rw [hd] at hf; exact absurd hf ne_functions
          · intro _ hp
            obtain ⟨b, p, h1, h2, h3⟩ := h.dhPub hd hp
            exact ⟨b, _, h1, rfl, fun hb => by rw [h2]; exact h3 hb⟩
          · intro hf; rw [hd] at hf; exact absurd hf ne_functions
      · rw [if_neg hd]
        by_cases he : v.entry.function = ed25519
        · rw [if_pos he, he, keySize_sig]
          unfold Pair.setPriv
          by_cases hl : key.length = 64
          · rw [if_neg (fun hc => hc hl), if_pos (by rw [hl])]
            refine ⟨rfl, rfl, ?_, fun hf => absurd hf hd, ?_, fun hf => absurd hf hd, ?_⟩
            · intro x hx; cases hx; rw [he, keySize_sig, hl]
            · intro _ x hx; cases hx; exact ⟨_, rfl, rfl⟩
            · intro _ hp
              obtain ⟨b, p, h1, h2, h3⟩ := h.sigPub he hp
              exact ⟨b, _, h1, rfl, fun hb => by rw [h2]; exact h3 hb⟩
          · rw [if_pos hl, if_neg (fun hc => hl (Option.some.inj hc).symm)]
            refine ⟨rfl, h.flag, h.size, fun hf => absurd hf hd, ?_, fun hf => absurd hf hd, ?_⟩
            · intro _ x hx
              obtain ⟨p, h1, h2⟩ := h.sigPriv he x hx
              exact ⟨_, rfl, by rw [h1]; exact h2⟩
            · intro _ hp
              obtain ⟨b, p, h1, h2, h3⟩ := h.sigPub he hp
              exact ⟨b, _, h1, rfl, fun hb => by rw [h2]; exact h3 hb⟩
        · rw [if_neg he]
          have : keySize v.entry.function = none := by
            unfold keySize
            rw [if_neg hd, if_neg he]
          rw [this, if_neg nofun]
          exact h
  | publicKey32 =>
    show Inv k.publicKey32.1 v
    unfold Held.publicKey32 Held.readPub
    cases hp : k.pubSet with
    | true => rw [if_pos rfl]; exact h
    | false =>
      rw [if_neg Bool.false_ne_true, h.entry]
      cases hb : Base64.decode v.entry.pubkey with
      | none => exact h
      | some b =>
        dsimp only
        by_cases hd : v.entry.function = ecdhe
        · rw [if_pos hd]
          refine ⟨rfl, h.flag, h.size, ?_, ?_, ?_, ?_⟩
          · intro _ x hx
            obtain ⟨p, h1, h2⟩ := h.dhPriv hd x hx
            refine ⟨_, rfl, ?_⟩
            unfold Pair.setPub
            rw [h1]
            split <;> exact h2
          · intro hf; rw [hd] at hf; exact absurd hf ne_functions
          · intro _ _
            refine ⟨b, _, hb, rfl, fun hl => ?_⟩
            unfold Pair.setPub
            rw [if_neg (fun hc => hc hl)]
          · intro hf; rw [hd] at hf; exact absurd hf ne_functions
        · rw [if_neg hd]
          by_cases he : v.entry.function = ed25519
          · rw [if_pos he]
            refine ⟨rfl, h.flag, h.size, fun hf => absurd hf hd, ?_, fun hf => absurd hf hd, ?_⟩
            · intro _ x hx
              obtain ⟨p, h1, h2⟩ := h.sigPriv he x hx
              refine ⟨_, rfl, ?_⟩
              unfold Pair.setPub
              rw [h1]
              split <;> exact h2
            · intro _ _
              refine ⟨b, _, hb, rfl, fun hl => ?_⟩
              unfold Pair.setPub
              rw [if_neg (fun hc => hc hl)]
          · rw [if_neg he]
            exact ⟨rfl, h.flag, h.size, fun hf => absurd hf hd, fun hf => absurd hf he, fun hf => absurd hf hd, fun hf => absurd hf he⟩

theorem inv_run (P : Prims) (hed : ∀ r, (P.edPriv r).length = 64) (ops : List Op) (ho : ∀ op ∈ ops, op.Random) :
    ∀ {k : Held} {v : View}, Inv k v → Inv (k.run P ops) (v.run P ops) := by
  induction ops with
  | nil => exact fun h => h
  | cons op ops ih => exact fun h => ih (fun x hx => ho x (.tail _ hx)) (inv_step P hed h op (ho op (.head _)))

/-! ### C135 -/

/-- C135: whatever was done with a key entry that was read, its exported fields are those of the last key generated, or the ones
read; the private key it gives out is the one last accepted, in the form that the function asks for, and there is a
panic exactly if there is none, or it is asked for in the form of the other function. -/
theorem C135_private (P : Prims) (hed : ∀ r, (P.edPriv r).length = 64) (e : KeyEntry) (ops : List Op) (ho : ∀ op ∈ ops, op.Random) :
    let k := (loaded e).run P ops
    let v := View.run P ⟨e, none⟩ ops
    k.entry = v.entry ∧ k.privateKey = v.priv.map Base64.encode ∧
      k.privateKey32 = (if v.entry.function = ecdhe then v.priv.map some else none) ∧
      k.privateKey64 = (if v.entry.function = ed25519 then v.priv else none) := by
  intro k v
  have h : Inv k v := inv_run P hed ops ho (inv_loaded e)
  have hsz := h.size
  refine ⟨h.entry, ?_, ?_, ?_⟩
  · unfold Held.privateKey
    rw [h.entry, h.flag]
    cases hv : v.priv with
    | none => rfl
    | some b =>
      rw [if_neg (by simp)]
      by_cases hd : v.entry.function = ecdhe
      · obtain ⟨p, h1, h2⟩ := h.dhPriv hd b hv
        rw [if_pos hd, h1, Option.bind_some, h2]
      · rw [if_neg hd]
        by_cases he : v.entry.function = ed25519
        · obtain ⟨p, h1, h2⟩ := h.sigPriv he b hv
          have := hsz b hv
          rw [he, keySize_sig] at this
          rw [if_pos he, h1, Option.map_some, h2, Option.getD_some, arr_eq (Option.some.inj this).symm]
          rfl
        · have := hsz b hv
          unfold keySize at this
          rw [if_neg hd, if_neg he] at this
          cases this
  · unfold Held.privateKey32
    rw [h.entry, h.flag]
    cases hv : v.priv with
    | none => simp
    | some b =>
      rw [if_neg (by simp)]
      by_cases hd : v.entry.function = ecdhe
      · obtain ⟨p, h1, h2⟩ := h.dhPriv hd b hv
        rw [if_pos hd, if_pos hd, h1, Option.map_some, h2]
        rfl
      · rw [if_neg hd, if_neg hd]
  · unfold Held.privateKey64
    rw [h.entry, h.flag]
    cases hv : v.priv with
    | none => simp
    | some b =>
      rw [if_neg (by simp)]
      by_cases he : v.entry.function = ed25519
      · obtain ⟨p, h1, h2⟩ := h.sigPriv he b hv
        have := hsz b hv
        rw [he, keySize_sig] at this
        rw [if_pos he, if_pos he, h1, Option.map_some, h2, Option.getD_some, arr_eq (Option.some.inj this).symm]
      · rw [if_neg he, if_neg he]

/-- The toy primitives with private keys of 64 bytes. -/
def toy64 : Prims := { Crypt.Toy.toy with edPriv := fun r => Crypt.Toy.bytesOf 64 (Crypt.Toy.sum r) }

theorem toy64_good : toy64.Good :=
  ⟨Crypt.Toy.toy_good.1, Crypt.Toy.toy_good.2, Crypt.Toy.toy_good.3, Crypt.Toy.toy_good.4, Crypt.Toy.toy_good.5, Crypt.Toy.toy_good.6, Crypt.Toy.toy_good.7, Crypt.Toy.toy_good.8⟩

/-- A history: a private key of the wrong size, reading the public key, a generated key, another private key for it. -/
def someOps : List Op :=
  [.setPrivateKey (Base64.encode [1]), .publicKey32, .initDH (some (List.replicate 32 7)), .setPrivateKey (Base64.encode (List.replicate 32 9)), .publicKey32]

theorem step_set (P : Prims) (v : View) (key : Bytes) (h : keySize v.entry.function = some key.length) :
    v.step P (.setPrivateKey (Base64.encode key)) = { v with priv := some key } := by
  show (match Base64.decode (Base64.encode key) with
    | some key => if keySize v.entry.function = some key.length then { v with priv := some key } else v
    | none => v) = _
  rw [Base64.decode_encode]
  exact if_pos h

example : (∀ r, (toy64.edPriv r).length = 64) ∧ (∀ op ∈ someOps, op.Random) ∧
    (View.run toy64 ⟨⟨[], ed25519, [], Base64.encode (List.replicate 32 3)⟩, none⟩ someOps).priv = some (List.replicate 32 9) := by
  refine ⟨fun _ => Crypt.Toy.bytesOf_length _ _, ?_, ?_⟩
  · simp [someOps, Op.Random]
  · show (View.step toy64 (View.step toy64 _ (.initDH (some (List.replicate 32 7)))) (.setPrivateKey (Base64.encode (List.replicate 32 9)))).priv = _
    rw [step_set toy64 _ _ keySize_dh]

/-- C135: if PUBKEY is the encoding of 32 bytes, these are the public key, whatever was done with the entry before. -/
theorem C135_public (P : Prims) (hed : ∀ r, (P.edPriv r).length = 64) (e : KeyEntry) (ops : List Op) (ho : ∀ op ∈ ops, op.Random) (b : Bytes)
    (hf : ((loaded e).run P ops).entry.function = ecdhe ∨ ((loaded e).run P ops).entry.function = ed25519)
    (hb : Base64.decode ((loaded e).run P ops).entry.pubkey = some b) (hl : b.length = 32) :
    ((loaded e).run P ops).publicKey32.2 = some (some b) := by
  have h : Inv ((loaded e).run P ops) (View.run P ⟨e, none⟩ ops) := inv_run P hed ops ho (inv_loaded e)
  generalize (loaded e).run P ops = k at *
  generalize View.run P ⟨e, none⟩ ops = v at *
  rw [h.entry] at hf hb
  unfold Held.publicKey32 Held.readPub
  cases hp : k.pubSet with
  | true =>
    rw [if_pos rfl]
    dsimp only
    unfold Held.public
    rw [h.entry]
    rcases hf with hf | hf
    · obtain ⟨b', p, h1, h2, h3⟩ := h.dhPub hf hp
      rw [hb] at h1
      cases h1
      rw [if_pos hf, h2, Option.map_some, h3 hl]
    · obtain ⟨b', p, h1, h2, h3⟩ := h.sigPub hf hp
      rw [hb] at h1
      cases h1
      rw [hf, if_neg (Ne.symm ne_functions), if_pos rfl, h2, Option.map_some, h3 hl, Option.getD_some, arr_eq hl]
  | false =>
    rw [if_neg Bool.false_ne_true, h.entry, hb]
    dsimp only
    rcases hf with hf | hf
    · rw [if_pos hf, setPub_ok _ hl]
      show Held.public _ = _
      unfold Held.public
      rw [if_pos hf]
      rfl
    · rw [if_neg (fun hc => ne_functions (hc.symm.trans hf)), if_pos hf, setPub_ok _ hl]
      show Held.public _ = _
      unfold Held.public
      rw [if_neg (fun hc => ne_functions (Eq.trans (Eq.symm hc) hf)), if_pos hf]
      show some (some (arr 32 b)) = _
      rw [arr_eq hl]

example : ((loaded ⟨[], ed25519, [], Base64.encode (List.replicate 32 3)⟩).run toy64 []).publicKey32.2 = some (some (List.replicate 32 3)) :=
  C135_public toy64 (fun _ => Crypt.Toy.bytesOf_length _ _) _ [] nofun _ (.inr rfl) (Base64.decode_encode _) rfl

/-- C135: a key that was generated survives storage. The entry that is read back from its exported fields, and given the private
key that the generated entry gives out, has the same public and private key. -/
theorem C135_stored (P : Prims) (hP : P.Good) (hed : ∀ r, (P.edPriv r).length = 64) (k : Held) (r : Bytes) (hr : r.length = 32) :
    (let g := (k.initDH P (some r)).1
     ∃ s, g.privateKey = some s ∧ ((loaded g.entry).setPrivateKey s).2 = true ∧
       ((loaded g.entry).setPrivateKey s).1.privateKey32 = some (some r) ∧
       ((loaded g.entry).setPrivateKey s).1.publicKey32.2 = some (some (P.dhPub r)) ∧ g.publicKey32.2 = some (some (P.dhPub r))) ∧
    (let g := (k.initSig P (some r)).1
     ∃ s, g.privateKey = some s ∧ ((loaded g.entry).setPrivateKey s).2 = true ∧
       ((loaded g.entry).setPrivateKey s).1.privateKey64 = some (P.edPriv r) ∧
       ((loaded g.entry).setPrivateKey s).1.publicKey32.2 = some (some (P.edPub (P.edPriv r))) ∧ g.publicKey32.2 = some (some (P.edPub (P.edPriv r)))) := by
  refine ⟨⟨Base64.encode r, rfl, ?_⟩, Base64.encode (P.edPriv r), ?_, ?_⟩
  · have hset : (loaded (k.initDH P (some r)).1.entry).setPrivateKey (Base64.encode r) =
        (⟨(k.initDH P (some r)).1.entry, some ⟨none, some r⟩, none, false, true⟩, true) := by
      unfold Held.setPrivateKey
      rw [Base64.decode_encode]
      exact setKey_dh _ rfl hr
    refine ⟨by rw [hset], by rw [hset]; rfl, ?_, rfl⟩
    have hent : ((loaded (k.initDH P (some r)).1.entry).run P [.setPrivateKey (Base64.encode r)]).entry = (k.initDH P (some r)).1.entry :=
      congrArg (fun x => x.1.entry) hset
    refine C135_public P hed (k.initDH P (some r)).1.entry [.setPrivateKey (Base64.encode r)] (by simp [Op.Random]) (P.dhPub r) ?_ ?_ (hP.dhPub_len r)
    · rw [hent]; exact .inl rfl
    · rw [hent]; exact Base64.decode_encode _
  · show some (Base64.encode (arr 64 (P.edPriv r))) = _
    rw [arr_eq (hed r)]
  · have hset : (loaded (k.initSig P (some r)).1.entry).setPrivateKey (Base64.encode (P.edPriv r)) =
        (⟨(k.initSig P (some r)).1.entry, none, some ⟨none, some (P.edPriv r)⟩, false, true⟩, true) := by
      unfold Held.setPrivateKey
      rw [Base64.decode_encode]
      exact setKey_sig _ rfl (hed r)
    refine ⟨by rw [hset], ?_, ?_, ?_⟩
    · rw [hset]
      show some (arr 64 (P.edPriv r)) = _
      rw [arr_eq (hed r)]
    · have hent : ((loaded (k.initSig P (some r)).1.entry).run P [.setPrivateKey (Base64.encode (P.edPriv r))]).entry = (k.initSig P (some r)).1.entry :=
        congrArg (fun x => x.1.entry) hset
      refine C135_public P hed (k.initSig P (some r)).1.entry [.setPrivateKey (Base64.encode (P.edPriv r))] (by simp [Op.Random]) (P.edPub (P.edPriv r)) ?_ ?_
        (hP.edPub_len _)
      · rw [hent]; exact .inr rfl
      · rw [hent]; exact Base64.decode_encode _
    · show some (some (arr 32 (P.edPub (P.edPriv r)))) = _
      rw [arr_eq (hP.edPub_len _)]

example : toy64.Good ∧ (∀ r, (toy64.edPriv r).length = 64) ∧ (List.replicate 32 (7 : UInt8)).length = 32 :=
  ⟨toy64_good, fun _ => Crypt.Toy.bytesOf_length _ _, rfl⟩

/-- C135: two entries are equal for the program exactly if their exported fields are. -/
theorem C135_equal (a b : KeyEntry) : equal a b = true ↔ a = b := by
  unfold equal
  obtain ⟨a1, a2, a3, a4⟩ := a
  obtain ⟨b1, b2, b3, b4⟩ := b
  simp only [KeyEntry.mk.injEq]
  split
  · rename_i h; simp [h]
  · split
    · rename_i h; simp [h]
    · split
      · rename_i h; simp [h]
      · split
        · rename_i h; simp [h]
        · rename_i h1 h2 h3 h4
          simp only [ne_eq, Decidable.not_not] at h1 h2 h3 h4
          simp [h1, h2, h3, h4]

example : equal ⟨[1], [2], [3], [4]⟩ ⟨[1], [2], [3], [4]⟩ = true ∧ equal ⟨[1], [2], [3], [4]⟩ ⟨[1], [2], [3], [5]⟩ = false := by decide

/-- C135: the private key is not checked against the public one: every key of the right size is taken, and the entry gives both
out. -/
theorem C135_mismatch_violated (e : KeyEntry) (hf : e.function = ecdhe) (pub priv : Bytes) (hp : Base64.decode e.pubkey = some pub) (hl : pub.length = 32)
    (hk : priv.length = 32) :
    ((loaded e).setPrivateKey (Base64.encode priv)).2 = true ∧
      ((loaded e).setPrivateKey (Base64.encode priv)).1.privateKey32 = some (some priv) ∧
      ((loaded e).setPrivateKey (Base64.encode priv)).1.publicKey32.2 = some (some pub) := by
  have hset : (loaded e).setPrivateKey (Base64.encode priv) = (⟨e, some ⟨none, some priv⟩, none, false, true⟩, true) := by
    unfold Held.setPrivateKey
    rw [Base64.decode_encode]
    exact setKey_dh _ hf hk
  rw [hset]
  refine ⟨rfl, ?_, ?_⟩
  · unfold Held.privateKey32
    rw [if_neg (by simp), if_pos hf]
    rfl
  · unfold Held.publicKey32 Held.readPub
    rw [if_neg Bool.false_ne_true]
    show (match (match Base64.decode e.pubkey with | none => none | some b => _ : Option Held) with | none => _ | some k' => _ : Held × Option (Option Bytes)).2 = _
    rw [hp]
    dsimp only
    rw [if_pos hf, setPub_ok _ hl]
    show Held.public _ = _
    unfold Held.public
    rw [if_pos hf]
    rfl

example : ((loaded ⟨[], ecdhe, [], Base64.encode (List.replicate 32 3)⟩).setPrivateKey (Base64.encode (List.replicate 32 4))).2 = true :=
  (C135_mismatch_violated _ rfl _ _ (Base64.decode_encode _) rfl rfl).1

/-- C135: the error for a public key of the wrong length is dropped. A Diffie-Hellman entry then gives out a nil pointer and
a signature entry a key of zeros, and neither is an error. -/
theorem C135_short_violated (e : KeyEntry) (b : Bytes) (hb : Base64.decode e.pubkey = some b) (hl : b.length ≠ 32) :
    (e.function = ecdhe → (loaded e).publicKey32.2 = some none) ∧
      (e.function = ed25519 → (loaded e).publicKey32.2 = some (some (List.replicate 32 0))) := by
  have key : (loaded e).publicKey32 = (match (loaded e).readPub with | none => (loaded e, none) | some k' => (k', k'.public)) := rfl
  have hr : (loaded e).readPub = (match Base64.decode e.pubkey with
    | none => none
    | some b =>
      if e.function = ecdhe then some { loaded e with curve := some ((orNew none).setPub b), pubSet := true }
      else if e.function = ed25519 then some { loaded e with ed := some ((orNew none).setPub b), pubSet := true }
      else some { loaded e with pubSet := true }) := rfl
  rw [hb] at hr
  dsimp only at hr
  have hs : (orNew none).setPub b = ⟨none, none⟩ := if_pos hl
  rw [hs] at hr
  constructor
  · intro hf
    rw [if_pos hf] at hr
    rw [key, hr]
    show Held.public _ = _
    unfold Held.public
    rw [if_pos (show (loaded e).entry.function = ecdhe from hf)]
    rfl
  · intro hf
    rw [hf, if_neg (Ne.symm ne_functions), if_pos rfl] at hr
    rw [key, hr]
    show Held.public _ = _
    unfold Held.public
    rw [show ({ loaded e with ed := some (⟨none, none⟩ : Pair), pubSet := true } : Held).entry.function = ed25519 from hf, if_neg (Ne.symm ne_functions), if_pos rfl]
    rfl

example : (loaded ⟨[], ed25519, [], Base64.encode [1, 2, 3]⟩).publicKey32.2 = some (some (List.replicate 32 0)) :=
  (C135_short_violated _ _ (Base64.decode_encode _) (by decide)).2 rfl

/-- C135: a signing key that could not be generated takes the old one with it, but the entry goes on claiming to hold one: asking
for it panics in another place than "private key not set" (keyentry.go:115-128). -/
theorem C135_failed_violated (P : Prims) (k : Held) : ((k.initSig P none).1.privSet = k.privSet ∧ (k.initSig P none).1.privateKey = none) := by
  refine ⟨rfl, ?_⟩
  unfold Held.privateKey Held.initSig
  dsimp only
  cases k.privSet with
  | false => rfl
  | true => rfl

example : ((loaded ⟨[], [], [], []⟩).initSig toy64 (some [])).1.privateKey ≠ none := nofun

end Verif.Uid.Keys

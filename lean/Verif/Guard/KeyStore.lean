/-
The storages of the key pool (serviceguard/common/keypool/keydb, keypool/keydir) and the pool writing to and loading from
them: C138.

The database is the table of keys; the directory is its files in the order of their names. What a statement or a system call
does is given by an outcome; an interrupted write of a file leaves the first bytes of it.
-/
import Verif.Guard.KeyPoolProps
import Verif.Util.Base64

set_option autoImplicit false

namespace Verif.Guard.KeyStore
open Verif Verif.Asn1 Verif.Util Verif.Guard.KeyPool

/-! ### the model -/

/-- A row of the table keypool (dbstorage.go:24-31). The text of the usage is not used. -/
structure Row where
  id : Bytes
  usage : Bytes
  data : Bytes
  deriving DecidableEq, Repr

/-- What is stored: the table, and the files with their names. -/
structure Disk where
  rows : List Row
  files : List (Bytes × Bytes)
  deriving DecidableEq, Repr

/-- The kinds of storage that can be registered. -/
inductive Store
  | db
  | dir
  deriving DecidableEq, Repr

/-- What a write comes to. A statement that is not done is `failed`; the write of a file can also break off. -/
inductive Out
  | ok
  | failed
  | cut (n : Nat)
  deriving DecidableEq, Repr

/-- `writeFunc` of the database (dbstorage.go:128-138): the error is dropped. KeyID is unique. -/
def insertRow (o : Out) (id usage data : Bytes) (d : Disk) : Disk :=
  if o = .ok ∧ (d.rows.any fun r => r.id == hex id) = false then { d with rows := d.rows ++ [⟨hex id, usage, Base64.encode data⟩] } else d

/-- The name of the file of a key (filestorage.go:32). -/
def fileName (id : Bytes) : Bytes := hex id ++ ".pubkey".toUTF8.data.toList

/-- A new file in the directory, which is listed by name. -/
def insertFile (name c : Bytes) : List (Bytes × Bytes) → List (Bytes × Bytes)
  | [] => [(name, c)]
  | (m, d) :: fs => if name < m then (name, c) :: (m, d) :: fs else (m, d) :: insertFile name c fs

/-- `ioutil.WriteFile`: an existing file is emptied first. -/
def putFile (name c : Bytes) (d : Disk) : Disk := { d with files := insertFile name c (d.files.filter fun f => f.1 ≠ name) }

/-- `writeKeyToDir` (filestorage.go:29-38). -/
def writeFile (o : Out) (id data : Bytes) (d : Disk) : Disk × Bool :=
  match o with
  | .ok => (putFile (fileName id) data d, true)
  | .failed => (d, false)
  | .cut n => (putFile (fileName id) (data.take n) d, false)

def write1 (o : Out) (id usage data : Bytes) (d : Disk) : Store → Disk × Bool
  | .db => (insertRow o id usage data d, true)
  | .dir => writeFile o id data d

/-- The chain of write callbacks (generator.go:265-276): in the order of registration, up to the first error. -/
def writeAll (outs : Store → Out) (id usage data : Bytes) : List Store → Disk → Disk × Bool
  | [], d => (d, true)
  | s :: ss, d => match write1 (outs s) id usage data d s with
    | (d', true) => writeAll outs id usage data ss d'
    | (d', false) => (d', false)

/-- `WriteKey` (generator.go:236-249). -/
def writeKey (utf8 : Bytes → Bool) (ss : List Store) (outs : Store → Out) (k : PubKey) (d : Disk) : Disk × Bool :=
  match k.marshal utf8 with
  | none => (d, false)
  | some b => writeAll outs k.keyID k.usage b ss d

/-- `Fetch` (dbstorage.go:141-156). -/
def fetch (d : Disk) (id : Bytes) : Option Bytes :=
  match d.rows.find? fun r => r.id == hex id with
  | none => none
  | some r => Base64.decode r.data

/-- Load keys until one cannot be read; errors of loading are ignored. -/
def loadItems (P : Prims) (utf8 : Bytes → Bool) (now : Int) : List (Option Bytes) → Pool → Pool × Bool
  | [], p => (p, true)
  | none :: _, p => (p, false)
  | some b :: bs, p => match PubKey.unmarshal utf8 b with
    | none => (p, false)
    | some k => loadItems P utf8 now bs (p.loadKey P now k).1

/-- What is read of a storage: `loadFunc` (dbstorage.go:164-188), `loadKeysFromDir` (filestorage.go:41-59). -/
def items (d : Disk) : Store → List (Option Bytes)
  | .db => d.rows.map fun r => Base64.decode r.data
  | .dir => d.files.map fun f => some f.2

/-- `Load` (generator.go:228-233) with the chain of load callbacks (generator.go:277-288). -/
def load (P : Prims) (utf8 : Bytes → Bool) (now : Int) (d : Disk) : List Store → Pool → Pool × Bool
  | [], p => (p, true)
  | s :: ss, p => match loadItems P utf8 now (items d s) p with
    | (p', true) => load P utf8 now d ss p'
    | (p', false) => (p', false)

/-- The issuer of tokens with its storages. `made` and `handed` are for the statements: the keys it generated, and those it
returned as the current key. -/
structure World where
  pool : Pool
  disk : Disk
  made : List PubKey
  handed : List PubKey

/-- `Current` (generator.go:157-188) with the storages. -/
def current (P : Prims) (utf8 : Bytes → Bool) (ss : List Store) (outs : Store → Out) (now : Int) (x y : Nat) (w : World) : World × Except Err (PubKey × Option PubKey) :=
  match w.pool.gen.keys with
  | none => (w, .error .noGenerator)
  | some (pub, priv) =>
    if w.pool.needsKey now then
      let k := genKey P w.pool.gen.usage w.pool.gen.expireTime pub priv now x y
      let (d, ok) := writeKey utf8 ss outs k w.disk
      let (p, r) := w.pool.currentKey P now x y ok
      (⟨p, d, k :: w.made, if ok then k :: w.handed else w.handed⟩, r)
    else (w, (w.pool.currentKey P now x y true).2)

/-- `SaveKey` (generator.go:141-154). -/
def save (utf8 : Bytes → Bool) (ss : List Store) (outs : Store → Out) (now : Int) (id : Bytes) (w : World) : World × Bool :=
  match w.pool.lookup now id with
  | .error _ => (w, false)
  | .ok k =>
    let (d, ok) := writeKey utf8 ss outs k w.disk
    ({ w with disk := d }, ok)

/-- What happens to the issuer: it is asked for the current key, saves a key, is started again, or loads keys. -/
inductive Op
  | current (outs : Store → Out) (now : Int) (x y : Nat)
  | save (outs : Store → Out) (now : Int) (id : Bytes)
  | restart (verifyKeys : List Bytes)
  | load (now : Int)

def step (P : Prims) (utf8 : Bytes → Bool) (ss : List Store) (w : World) : Op → World
  | .current outs now x y => (current P utf8 ss outs now x y w).1
  | .save outs now id => (save utf8 ss outs now id w).1
  | .restart vs => { w with pool := { Pool.new w.pool.gen with verifyKeys := vs } }
  | .load now => { w with pool := (load P utf8 now w.disk ss w.pool).1 }

def run (P : Prims) (utf8 : Bytes → Bool) (ss : List Store) (w : World) (ops : List Op) : World := ops.foldl (step P utf8 ss) w

/-! ### the specification -/

/-- The sizes of keys. -/
structure Fine (k : PubKey) : Prop where
  id : k.keyID.length = 32
  signer : k.signer.length = 32
  sig : k.signature.length = 64
  expire : -2 ^ 63 ≤ k.expire ∧ k.expire < 2 ^ 63
  usage : k.usage.length < 2 ^ 28
  x : (base256 k.x).length < 2 ^ 28
  y : (base256 k.y).length < 2 ^ 28

/-- The keys that were generated have the right sizes, and no two have the same id. -/
structure Sound (w : World) : Prop where
  fine : ∀ k ∈ w.made, Fine k
  ids : (w.made.map PubKey.keyID).Nodup

/-- An issuer that starts with empty storages. -/
def start (g : Generator) (vs : List Bytes) : World := ⟨{ Pool.new g with verifyKeys := vs }, ⟨[], []⟩, [], []⟩

/-- Somebody who checks tokens of this issuer: knows the signer, and is for the same usage or for all. -/
structure Checks (q : Pool) (k : PubKey) : Prop where
  usage : q.gen.usage ≠ [] → k.usage = q.gen.usage
  signer : k.signer ∈ q.verifyKeys
  fresh : q.find k.keyID = none

/-! ### text -/

theorem fileName_inj {a b : Bytes} (h : fileName a = fileName b) : a = b := hex_inj (List.append_cancel_right h)

theorem readLong_append (s : Bytes) : ∀ (k acc : Nat) (p : Bytes) (n : Nat) (r : Bytes), readLong k acc p = some (n, r) → readLong k acc (p ++ s) = some (n, r ++ s) := by
  intro k
  induction k with
  | zero =>
    intro acc p n r h
    unfold readLong at h ⊢
    by_cases ha : acc < 128
    · rw [if_pos ha] at h; cases h
    · rw [if_neg ha] at h ⊢; cases h; rfl
  | succ k ih =>
    intro acc p n r h
    cases p with
    | nil => unfold readLong at h; cases h
    | cons b p =>
      rw [List.cons_append]
      unfold readLong at h ⊢
      by_cases h1 : 2 ^ 23 ≤ acc
      · rw [if_pos h1] at h; cases h
      · rw [if_neg h1] at h ⊢
        by_cases h2 : acc * 256 + b.toNat = 0
        · rw [if_pos h2] at h; cases h
        · rw [if_neg h2] at h ⊢
          exact ih _ _ _ _ h

theorem readLen_append (s p : Bytes) (n : Nat) (r : Bytes) (h : readLen p = some (n, r)) : readLen (p ++ s) = some (n, r ++ s) := by
  cases p with
  | nil => cases h
  | cons b p =>
    rw [List.cons_append]
    unfold readLen at h ⊢
    dsimp only at h ⊢
    by_cases h1 : b < 128
    · rw [if_pos h1] at h ⊢; cases h; rfl
    · rw [if_neg h1] at h ⊢
      by_cases h2 : b = 128
      · rw [if_pos h2] at h; cases h
      · rw [if_neg h2] at h ⊢
        exact readLong_append s _ _ _ _ _ h

theorem readTLV_append (tag : UInt8) (s p c r : Bytes) (h : readTLV tag p = some (c, r)) : readTLV tag (p ++ s) = some (c, r ++ s) := by
  cases p with
  | nil => cases h
  | cons t p =>
    rw [List.cons_append]
    unfold readTLV at h ⊢
    dsimp only at h ⊢
    by_cases h1 : t ≠ tag
    · rw [if_pos h1] at h; cases h
    · rw [if_neg h1] at h ⊢
      cases h2 : readLen p with
      | none => rw [h2] at h; cases h
      | some v =>
        obtain ⟨n, rest⟩ := v
        rw [h2] at h
        rw [readLen_append s p n rest h2]
        dsimp only at h ⊢
        by_cases h3 : rest.length < n
        · rw [if_pos h3] at h; cases h
        · rw [if_neg h3] at h
          cases h
          rw [if_neg (by rw [List.length_append]; omega), List.take_append_of_le_length (by omega), List.drop_append_of_le_length (by omega)]

/-- The bytes of a key. -/
theorem marshal_tlv {utf8 : Bytes → Bool} {k : PubKey} {b : Bytes} (hf : Fine k) (h : k.marshal utf8 = some b) : ∃ c, readTLV 48 b = some (c, []) := by
  unfold PubKey.marshal at h
  obtain ⟨u, hu', rfl⟩ := Option.map_eq_some_iff.mp h
  have hul : u.length ≤ k.usage.length + 6 := by
    have hu := hf.usage
    unfold eStr at hu'
    split at hu'
    · cases hu'
      have := tlv_length 19 k.usage (by omega)
      omega
    · split at hu'
      · cases hu'
        have := tlv_length 12 k.usage (by omega)
        omega
      · cases hu'
  obtain ⟨h1, h2, h3, h4, h5, h6, h7⟩ := hf
  have t1 := tlv_length 4 k.keyID (by omega)
  have t2 := tlv_length 4 (base256 k.x) (by omega)
  have t3 := tlv_length 4 (base256 k.y) (by omega)
  have t4 : (encInt k.expire).length ≤ 8 := encInt_length 8 k.expire (by omega) (by omega)
  have t5 := tlv_length 2 (encInt k.expire) (by omega)
  have t6 := tlv_length 4 k.signer (by omega)
  have t7 := tlv_length 4 k.signature (by omega)
  refine ⟨eBytes k.keyID ++ (eBytes (base256 k.x) ++ (eBytes (base256 k.y) ++ (eInt k.expire ++ (u ++ (eBytes k.signer ++ eBytes k.signature))))), ?_⟩
  rw [← List.append_nil (tlv 48 _), readTLV_tlv]
  simp only [List.length_append, eBytes, eInt] at *
  omega

/-- A key whose bytes break off is not read. -/
theorem cut_unreadable {utf8 : Bytes → Bool} {k : PubKey} {b : Bytes} (hf : Fine k) (h : k.marshal utf8 = some b) (n : Nat) (hn : n < b.length) :
    PubKey.unmarshal utf8 (b.take n) = none := by
  obtain ⟨c, hc⟩ := marshal_tlv hf h
  unfold PubKey.unmarshal
  cases hx : readTLV 48 (b.take n) with
  | none => rfl
  | some v =>
    obtain ⟨c', r⟩ := v
    have := readTLV_append 48 (b.drop n) _ _ _ hx
    rw [List.take_append_drop, hc] at this
    have h2 := congrArg List.length (congrArg Prod.snd (Option.some.inj this))
    simp at h2
    omega

/-! ### what is on the disk -/

/-- Files and rows of keys that were generated; a file may break off unless `wh`. -/
structure DiskOk (utf8 : Bytes → Bool) (wh : Prop) (made : List PubKey) (d : Disk) : Prop where
  files : ∀ f ∈ d.files, ∃ k ∈ made, ∃ b n, k.marshal utf8 = some b ∧ f = (fileName k.keyID, b.take n) ∧ (wh → b.length ≤ n)
  rows : ∀ r ∈ d.rows, ∃ k ∈ made, ∃ b, k.marshal utf8 = some b ∧ r.id = hex k.keyID ∧ r.data = Base64.encode b

theorem mem_insertFile (name c : Bytes) (fs : List (Bytes × Bytes)) (f : Bytes × Bytes) : f ∈ insertFile name c fs ↔ f = (name, c) ∨ f ∈ fs := by
  induction fs with
  | nil => simp [insertFile]
  | cons g fs ih =>
    obtain ⟨m, d⟩ := g
    unfold insertFile
    by_cases h : name < m
    · rw [if_pos h]; simp
    · rw [if_neg h, List.mem_cons, ih, List.mem_cons]
      constructor
      · rintro (h | h | h)
        · exact .inr (.inl h)
        · exact .inl h
        · exact .inr (.inr h)
      · rintro (h | h | h)
        · exact .inr (.inl h)
        · exact .inl h
        · exact .inr (.inr h)

theorem mem_putFile (name c : Bytes) (d : Disk) (f : Bytes × Bytes) : f ∈ (putFile name c d).files ↔ f = (name, c) ∨ (f ∈ d.files ∧ f.1 ≠ name) := by
  unfold putFile
  rw [mem_insertFile, List.mem_filter]
  simp

theorem DiskOk.mono {utf8 : Bytes → Bool} {wh : Prop} {made : List PubKey} {d : Disk} (h : DiskOk utf8 wh made d) (k : PubKey) : DiskOk utf8 wh (k :: made) d :=
  ⟨fun f hf => by obtain ⟨k', h1, h2⟩ := h.files f hf; exact ⟨k', .tail _ h1, h2⟩, fun r hr => by obtain ⟨k', h1, h2⟩ := h.rows r hr; exact ⟨k', .tail _ h1, h2⟩⟩

theorem putFile_ok {utf8 : Bytes → Bool} {wh : Prop} {made : List PubKey} {d : Disk} (h : DiskOk utf8 wh made d) {k : PubKey} (hk : k ∈ made) {b : Bytes} (hb : k.marshal utf8 = some b) (n : Nat) (hn : wh → b.length ≤ n) :
    DiskOk utf8 wh made (putFile (fileName k.keyID) (b.take n) d) := by
  refine ⟨fun f hf => ?_, h.rows⟩
  rcases (mem_putFile _ _ _ _).mp hf with rfl | ⟨h1, -⟩
  · exact ⟨k, hk, b, n, hb, rfl, hn⟩
  · exact h.files f h1

theorem write1_ok {utf8 : Bytes → Bool} {wh : Prop} {made : List PubKey} {d : Disk} (h : DiskOk utf8 wh made d) {k : PubKey} (hk : k ∈ made) {b : Bytes} (hb : k.marshal utf8 = some b) (o : Out) (hwh : wh → ∀ n, o ≠ .cut n) (s : Store) :
    DiskOk utf8 wh made (write1 o k.keyID k.usage b d s).1 := by
  cases s with
  | db =>
    show DiskOk utf8 wh made (insertRow o k.keyID k.usage b d)
    unfold insertRow
    by_cases hc : o = .ok ∧ (d.rows.any fun r => r.id == hex k.keyID) = false
    · rw [if_pos hc]
      refine ⟨h.files, fun r hr => ?_⟩
      rcases List.mem_append.mp hr with h1 | h1
      · exact h.rows r h1
      · obtain rfl := List.mem_singleton.mp h1
        exact ⟨k, hk, b, hb, rfl, rfl⟩
    · rw [if_neg hc]; exact h
  | dir =>
    show DiskOk utf8 wh made (writeFile o k.keyID b d).1
    cases o with
    | ok =>
      have := putFile_ok h hk hb b.length fun _ => Nat.le_refl _
      rw [List.take_length] at this
      exact this
    | failed => exact h
    | cut n => exact putFile_ok h hk hb n fun hw => absurd rfl (hwh hw n)

theorem writeAll_ok {utf8 : Bytes → Bool} {wh : Prop} {made : List PubKey} (outs : Store → Out) (hwh : wh → ∀ s n, outs s ≠ .cut n) (ss : List Store) {d : Disk} (h : DiskOk utf8 wh made d) {k : PubKey} (hk : k ∈ made)
    {b : Bytes} (hb : k.marshal utf8 = some b) : DiskOk utf8 wh made (writeAll outs k.keyID k.usage b ss d).1 := by
  induction ss generalizing d with
  | nil => exact h
  | cons s ss ih =>
    have h1 := write1_ok h hk hb (outs s) (fun hw => hwh hw s) s
    unfold writeAll
    cases hw : write1 (outs s) k.keyID k.usage b d s with
    | mk d' ok =>
      rw [hw] at h1
      cases ok with
      | true => exact ih h1
      | false => exact h1

theorem writeKey_ok {utf8 : Bytes → Bool} {wh : Prop} {made : List PubKey} (outs : Store → Out) (hwh : wh → ∀ s n, outs s ≠ .cut n) (ss : List Store) {d : Disk} (h : DiskOk utf8 wh made d) {k : PubKey} (hk : k ∈ made) :
    DiskOk utf8 wh made (writeKey utf8 ss outs k d).1 := by
  unfold writeKey
  cases hb : k.marshal utf8 with
  | none => exact h
  | some b => exact writeAll_ok outs hwh ss h hk hb

/-- The key has a complete file. -/
def OnFile (utf8 : Bytes → Bool) (d : Disk) (k : PubKey) : Prop := ∃ b, k.marshal utf8 = some b ∧ (fileName k.keyID, b) ∈ d.files

/-- The key has a row. -/
def InDb (utf8 : Bytes → Bool) (d : Disk) (k : PubKey) : Prop := ∃ b r, k.marshal utf8 = some b ∧ r ∈ d.rows ∧ r.id = hex k.keyID ∧ r.data = Base64.encode b

/-- A write for a key with another id, or one of this key that does not break off, keeps its file. -/
theorem write1_file {utf8 : Bytes → Bool} {d : Disk} {k k' : PubKey} {b : Bytes} (hb : k'.marshal utf8 = some b) (o : Out) (s : Store) (h : OnFile utf8 d k)
    (hk : k.keyID ≠ k'.keyID ∨ (k = k' ∧ ∀ n, o ≠ .cut n)) : OnFile utf8 (write1 o k'.keyID k'.usage b d s).1 k := by
  obtain ⟨c, hc, hm⟩ := h
  refine ⟨c, hc, ?_⟩
  cases s with
  | db =>
    show _ ∈ (insertRow o k'.keyID k'.usage b d).files
    unfold insertRow
    by_cases hx : o = .ok ∧ (d.rows.any fun r => r.id == hex k'.keyID) = false
    · rw [if_pos hx]; exact hm
    · rw [if_neg hx]; exact hm
  | dir =>
    show _ ∈ (writeFile o k'.keyID b d).1.files
    rcases hk with hk | ⟨rfl, hn⟩
    · have hne : fileName k.keyID ≠ fileName k'.keyID := fun he => hk (fileName_inj he)
      cases o with
      | ok => exact (mem_putFile _ _ _ _).mpr (.inr ⟨hm, hne⟩)
      | failed => exact hm
      | cut n => exact (mem_putFile _ _ _ _).mpr (.inr ⟨hm, hne⟩)
    · cases o with
      | ok =>
        rw [hb] at hc
        cases hc
        exact (mem_putFile _ _ _ _).mpr (.inl rfl)
      | failed => exact hm
      | cut n => exact absurd rfl (hn n)

theorem writeAll_file {utf8 : Bytes → Bool} (outs : Store → Out) (ss : List Store) {d : Disk} {k k' : PubKey} {b : Bytes} (hb : k'.marshal utf8 = some b) (h : OnFile utf8 d k)
    (hk : k.keyID ≠ k'.keyID ∨ (k = k' ∧ ∀ s n, outs s ≠ .cut n)) : OnFile utf8 (writeAll outs k'.keyID k'.usage b ss d).1 k := by
  induction ss generalizing d with
  | nil => exact h
  | cons s ss ih =>
    have h1 := write1_file hb (outs s) s h (hk.imp id fun hx => ⟨hx.1, hx.2 s⟩)
    unfold writeAll
    cases hw : write1 (outs s) k'.keyID k'.usage b d s with
    | mk d' ok =>
      rw [hw] at h1
      cases ok with
      | true => exact ih h1
      | false => exact h1

theorem writeKey_file {utf8 : Bytes → Bool} (outs : Store → Out) (ss : List Store) {d : Disk} {k k' : PubKey} (h : OnFile utf8 d k)
    (hk : k.keyID ≠ k'.keyID ∨ (k = k' ∧ ∀ s n, outs s ≠ .cut n)) : OnFile utf8 (writeKey utf8 ss outs k' d).1 k := by
  unfold writeKey
  cases hb : k'.marshal utf8 with
  | none => exact h
  | some b => exact writeAll_file outs ss hb h hk

/-- A write that reports success has left the file. -/
theorem writeAll_new {utf8 : Bytes → Bool} (outs : Store → Out) (ss : List Store) (hs : Store.dir ∈ ss) {d : Disk} {k : PubKey} {b : Bytes} (hb : k.marshal utf8 = some b)
    (h : (writeAll outs k.keyID k.usage b ss d).2 = true) : OnFile utf8 (writeAll outs k.keyID k.usage b ss d).1 k := by
  induction ss generalizing d with
  | nil => cases hs
  | cons s ss ih =>
    unfold writeAll at h ⊢
    cases hw : write1 (outs s) k.keyID k.usage b d s with
    | mk d' ok =>
      rw [hw] at h
      cases ok with
      | false => cases h
      | true =>
        dsimp only at h ⊢
        by_cases hss : Store.dir ∈ ss
        · exact ih hss h
        · rcases List.mem_cons.mp hs with rfl | hs
          · have hd : OnFile utf8 d' k := by
              refine ⟨b, hb, ?_⟩
              cases ho : outs .dir with
              | ok =>
                rw [ho] at hw
                have : d' = putFile (fileName k.keyID) b d := (Prod.mk.inj hw).1.symm
                rw [this]
                exact (mem_putFile _ _ _ _).mpr (.inl rfl)
              | failed => rw [ho] at hw; cases hw
              | cut n => rw [ho] at hw; cases hw
            clear hs h ih hw
            -- the remaining storages are databases
            have : ∀ (ts : List Store) (e : Disk), Store.dir ∉ ts → OnFile utf8 e k → OnFile utf8 (writeAll outs k.keyID k.usage b ts e).1 k := by
              intro ts
              induction ts with
              | nil => exact fun _ _ h => h
              | cons t ts iht =>
                intro e hnot he
                cases t with
                | dir => exact absurd (.head _) hnot
                | db =>
                  unfold writeAll
                  refine iht _ (fun hh => hnot (.tail _ hh)) ?_
                  obtain ⟨c, hc, hm⟩ := he
                  refine ⟨c, hc, ?_⟩
                  unfold insertRow
                  by_cases hx : outs .db = .ok ∧ (e.rows.any fun r => r.id == hex k.keyID) = false
                  · rw [if_pos hx]; exact hm
                  · rw [if_neg hx]; exact hm
            exact this ss d' hss hd
          · exact absurd hs hss

theorem insertRow_keeps {utf8 : Bytes → Bool} {d : Disk} {k : PubKey} (o : Out) (id usage data : Bytes) (h : InDb utf8 d k) : InDb utf8 (insertRow o id usage data d) k := by
  obtain ⟨b, r, h1, h2, h3, h4⟩ := h
  refine ⟨b, r, h1, ?_, h3, h4⟩
  unfold insertRow
  by_cases hx : o = .ok ∧ (d.rows.any fun r => r.id == hex id) = false
  · rw [if_pos hx]; exact List.mem_append_left _ h2
  · rw [if_neg hx]; exact h2

theorem write1_db {utf8 : Bytes → Bool} {d : Disk} {k : PubKey} (o : Out) (id usage data : Bytes) (s : Store) (h : InDb utf8 d k) : InDb utf8 (write1 o id usage data d s).1 k := by
  cases s with
  | db => exact insertRow_keeps o id usage data h
  | dir =>
    show InDb utf8 (writeFile o id data d).1 k
    cases o <;> exact h

theorem writeAll_db {utf8 : Bytes → Bool} (outs : Store → Out) (ss : List Store) {d : Disk} {k : PubKey} (id usage data : Bytes) (h : InDb utf8 d k) :
    InDb utf8 (writeAll outs id usage data ss d).1 k := by
  induction ss generalizing d with
  | nil => exact h
  | cons s ss ih =>
    have h1 := write1_db (outs s) id usage data s h
    unfold writeAll
    cases hw : write1 (outs s) id usage data d s with
    | mk d' ok =>
      rw [hw] at h1
      cases ok with
      | true => exact ih h1
      | false => exact h1

theorem writeKey_db {utf8 : Bytes → Bool} (outs : Store → Out) (ss : List Store) {d : Disk} {k : PubKey} (k' : PubKey) (h : InDb utf8 d k) :
    InDb utf8 (writeKey utf8 ss outs k' d).1 k := by
  unfold writeKey
  cases k'.marshal utf8 with
  | none => exact h
  | some b => exact writeAll_db outs ss _ _ _ h

/-- A write that reports success has left the row, if the statement was done. -/
theorem writeAll_row {utf8 : Bytes → Bool} {wh : Prop} (outs : Store → Out) (ho : outs .db = .ok) (hwh : wh → ∀ s n, outs s ≠ .cut n) (made : List PubKey) (hids : ∀ a ∈ made, ∀ c ∈ made, a.keyID = c.keyID → a = c)
    (ss : List Store) (hs : Store.db ∈ ss) {d : Disk} (hd : DiskOk utf8 wh made d) {k : PubKey} (hk : k ∈ made) {b : Bytes} (hb : k.marshal utf8 = some b)
    (h : (writeAll outs k.keyID k.usage b ss d).2 = true) : InDb utf8 (writeAll outs k.keyID k.usage b ss d).1 k := by
  induction ss generalizing d with
  | nil => cases hs
  | cons s ss ih =>
    have h1 := write1_ok hd hk hb (outs s) (fun hw => hwh hw s) s
    unfold writeAll at h ⊢
    cases s with
    | dir =>
      cases hw : write1 (outs .dir) k.keyID k.usage b d .dir with
      | mk d' ok =>
        rw [hw] at h h1
        cases ok with
        | false => cases h
        | true => exact ih (by rcases List.mem_cons.mp hs with h | h; cases h; exact h) h1 h
    | db =>
      show InDb utf8 (writeAll outs k.keyID k.usage b ss (insertRow (outs .db) k.keyID k.usage b d)).1 k
      refine writeAll_db outs ss _ _ _ ?_
      unfold insertRow
      by_cases hx : outs .db = .ok ∧ (d.rows.any fun r => r.id == hex k.keyID) = false
      · rw [if_pos hx]
        exact ⟨b, _, hb, List.mem_append_right _ (List.mem_singleton.mpr rfl), rfl, rfl⟩
      · rw [if_neg hx]
        have hany : (d.rows.any fun r => r.id == hex k.keyID) = true := by
          cases hv : d.rows.any fun r => r.id == hex k.keyID with
          | true => rfl
          | false => exact absurd ⟨ho, hv⟩ hx
        obtain ⟨r, hr, he⟩ := List.any_eq_true.mp hany
        have he : r.id = hex k.keyID := eq_of_beq he
        obtain ⟨k', hk', b', hb', h2, h3⟩ := hd.rows r hr
        have : k' = k := hids _ hk' _ hk (hex_inj (h2.symm.trans he))
        subst this
        exact ⟨b', r, hb', hr, h2, h3⟩

/-! ### loading -/

theorem find_cons (p : Pool) (k : PubKey) (id : Bytes) : ({ p with keys := (k.keyID, k) :: p.keys } : Pool).find id = if k.keyID = id then some k else p.find id := by
  unfold Pool.find
  rw [List.find?_cons]
  by_cases h : k.keyID = id
  · rw [if_pos h]; simp [h]
  · rw [if_neg h, show (k.keyID == id) = false by simp [h]]

/-- Loading a key leaves one found, if it is the only one with its id. -/
theorem loadKey_find {P : Prims} {p : Pool} {now : Int} {k k' : PubKey} (hu : k'.keyID = k.keyID → k' = k) (h : p.find k.keyID = none ∨ p.find k.keyID = some k) :
    (p.loadKey P now k').1.find k.keyID = p.find k.keyID ∨ (p.loadKey P now k').1.find k.keyID = some k := by
  rcases loadKey_cases P p now k' with e | ⟨_, _, _, e⟩ | ⟨_, hn, e⟩
  · rw [e.1]; exact .inl rfl
  · rw [e]; exact .inl rfl
  · rw [e, find_cons]
    by_cases hk : k'.keyID = k.keyID
    · rw [if_pos hk, hu hk]; exact .inr rfl
    · rw [if_neg hk]; exact .inl rfl

/-- Loading the key itself finds it. -/
theorem loadKey_self {P : Prims} {p : Pool} {now : Int} {k : PubKey} (ha : Accepted P p now k) (h : p.find k.keyID = none ∨ p.find k.keyID = some k) :
    (p.loadKey P now k).1.find k.keyID = some k := by
  have hv : k.verify P k.signer = true := by
    unfold PubKey.verify PubKey.calc
    rw [if_neg (by simp [ha.signed.id]), ha.signed.id]
    exact ha.signed.sig
  have he := ha.expire
  unfold Pool.loadKey
  rw [if_neg (fun hh => hh.2 (ha.usage hh.1)), if_neg (by omega), if_neg (by simp [Pool.hasVerifyKey, ha.signer]), if_neg (by rw [hv]; decide)]
  rcases h with h | h
  · rw [h]
    dsimp only
    rw [find_cons, if_pos rfl]
  · rw [h]
    exact h

theorem loadItems_same (P : Prims) (utf8 : Bytes → Bool) (now : Int) (bs : List (Option Bytes)) (p : Pool) : Same p (loadItems P utf8 now bs p).1 := by
  induction bs generalizing p with
  | nil => exact ⟨rfl, rfl⟩
  | cons o bs ih =>
    cases o with
    | none => exact ⟨rfl, rfl⟩
    | some b =>
      unfold loadItems
      cases PubKey.unmarshal utf8 b with
      | none => exact ⟨rfl, rfl⟩
      | some k =>
        have h1 := loadKey_same P p now k
        have h2 := ih (p.loadKey P now k).1
        exact ⟨h2.1.trans h1.1, h2.2.trans h1.2⟩

/-- Loading items of which each is a key that is the only one with its id. -/
theorem loadItems_find {P : Prims} {utf8 : Bytes → Bool} {now : Int} {k : PubKey} (bs : List (Option Bytes))
    (hb : ∀ o ∈ bs, ∃ b k', o = some b ∧ PubKey.unmarshal utf8 b = some k' ∧ (k'.keyID = k.keyID → k' = k)) (p : Pool)
    (h : p.find k.keyID = none ∨ p.find k.keyID = some k) (ha : Accepted P p now k) :
    (loadItems P utf8 now bs p).2 = true ∧
    ((loadItems P utf8 now bs p).1.find k.keyID = none ∨ (loadItems P utf8 now bs p).1.find k.keyID = some k) ∧
    (((∃ b, some b ∈ bs ∧ PubKey.unmarshal utf8 b = some k) ∨ p.find k.keyID = some k) → (loadItems P utf8 now bs p).1.find k.keyID = some k) := by
  induction bs generalizing p with
  | nil =>
    refine ⟨rfl, h, ?_⟩
    rintro (⟨b, hb, -⟩ | h)
    · cases hb
    · exact h
  | cons o bs ih =>
    obtain ⟨b, k', rfl, hu, hk⟩ := hb _ (.head _)
    unfold loadItems
    rw [hu]
    dsimp only
    have hs := loadKey_same P p now k'
    have h1 := loadKey_find (P := P) (now := now) hk h
    have h2 : (p.loadKey P now k').1.find k.keyID = none ∨ (p.loadKey P now k').1.find k.keyID = some k := by
      rcases h1 with h1 | h1
      · rw [h1]; exact h
      · exact .inr h1
    obtain ⟨h3, h4, h5⟩ := ih (fun o ho => hb o (.tail _ ho)) _ h2 ⟨by rw [hs.1]; exact ha.usage, ha.expire, by rw [hs.2]; exact ha.signer, ha.signed⟩
    refine ⟨h3, h4, ?_⟩
    rintro (⟨c, hc, hcu⟩ | hf)
    · rcases List.mem_cons.mp hc with hc | hc
      · cases hc
        rw [hu] at hcu
        cases hcu
        exact h5 (.inr (loadKey_self ha h))
      · exact h5 (.inl ⟨c, hc, hcu⟩)
    · refine h5 (.inr ?_)
      rcases h1 with h1 | h1
      · rw [h1]; exact hf
      · exact h1

theorem load_find {P : Prims} {utf8 : Bytes → Bool} {now : Int} {k : PubKey} {d : Disk} (ts : List Store)
    (hb : ∀ t ∈ ts, ∀ o ∈ items d t, ∃ b k', o = some b ∧ PubKey.unmarshal utf8 b = some k' ∧ (k'.keyID = k.keyID → k' = k)) (p : Pool)
    (h : p.find k.keyID = none ∨ p.find k.keyID = some k) (ha : Accepted P p now k) :
    (load P utf8 now d ts p).2 = true ∧
    (((∃ t ∈ ts, ∃ b, some b ∈ items d t ∧ PubKey.unmarshal utf8 b = some k) ∨ p.find k.keyID = some k) → (load P utf8 now d ts p).1.find k.keyID = some k) := by
  induction ts generalizing p with
  | nil =>
    refine ⟨rfl, ?_⟩
    rintro (⟨t, ht, -⟩ | h)
    · cases ht
    · exact h
  | cons t ts ih =>
    obtain ⟨h1, h2, h3⟩ := loadItems_find (items d t) (hb t (.head _)) p h ha
    have hs := loadItems_same P utf8 now (items d t) p
    unfold load
    cases hl : loadItems P utf8 now (items d t) p with
    | mk p' ok =>
      rw [hl] at h1 h2 h3 hs
      replace h1 : ok = true := h1
      subst h1
      dsimp only at h2 h3 hs ⊢
      obtain ⟨h4, h5⟩ := ih (fun u hu => hb u (.tail _ hu)) p' h2 ⟨by rw [hs.1]; exact ha.usage, ha.expire, by rw [hs.2]; exact ha.signer, ha.signed⟩
      refine ⟨h4, ?_⟩
      rintro (⟨u, hu, b, hb1, hb2⟩ | hf)
      · rcases List.mem_cons.mp hu with rfl | hu
        · exact h5 (.inr (h3 (.inl ⟨b, hb1, hb2⟩)))
        · exact h5 (.inl ⟨u, hu, b, hb1, hb2⟩)
      · exact h5 (.inr (h3 (.inr hf)))

/-- The keys of the pool after loading: those from before, and keys of the items. -/
theorem loadItems_keys (P : Prims) (utf8 : Bytes → Bool) (now : Int) (made : List PubKey) (bs : List (Option Bytes))
    (hb : ∀ b, some b ∈ bs → ∀ k, PubKey.unmarshal utf8 b = some k → k ∈ made) (p : Pool) (h : ∀ r ∈ p.keys, r.2.keyID = r.1 ∧ r.2 ∈ made) :
    ∀ r ∈ (loadItems P utf8 now bs p).1.keys, r.2.keyID = r.1 ∧ r.2 ∈ made := by
  induction bs generalizing p with
  | nil => exact h
  | cons o bs ih =>
    cases o with
    | none => exact h
    | some b =>
      unfold loadItems
      cases hu : PubKey.unmarshal utf8 b with
      | none => exact h
      | some k =>
        refine ih (fun c hc => hb c (.tail _ hc)) _ ?_
        rcases loadKey_cases P p now k with e | ⟨_, _, _, e⟩ | ⟨_, _, e⟩
        · rw [e.1]; exact h
        · rw [e]; exact h
        · rw [e]
          intro r hr
          rcases List.mem_cons.mp hr with rfl | hr
          · exact ⟨rfl, hb b (.head _) k hu⟩
          · exact h r hr

theorem load_keys (P : Prims) (utf8 : Bytes → Bool) (now : Int) (made : List PubKey) (d : Disk) (ts : List Store)
    (hb : ∀ t b, some b ∈ items d t → ∀ k, PubKey.unmarshal utf8 b = some k → k ∈ made) (p : Pool) (h : ∀ r ∈ p.keys, r.2.keyID = r.1 ∧ r.2 ∈ made) :
    (∀ r ∈ (load P utf8 now d ts p).1.keys, r.2.keyID = r.1 ∧ r.2 ∈ made) ∧ (load P utf8 now d ts p).1.gen = p.gen := by
  induction ts generalizing p with
  | nil => exact ⟨h, rfl⟩
  | cons t ts ih =>
    have h1 := loadItems_keys P utf8 now made (items d t) (hb t) p h
    have hs := loadItems_same P utf8 now (items d t) p
    unfold load
    cases hl : loadItems P utf8 now (items d t) p with
    | mk p' ok =>
      rw [hl] at h1 hs
      cases ok with
      | true => exact ⟨(ih p' h1).1, (ih p' h1).2.trans hs.1⟩
      | false => exact ⟨h1, hs.1⟩

theorem disk_items {utf8 : Bytes → Bool} {wh : Prop} {made : List PubKey} {d : Disk} (h : DiskOk utf8 wh made d) (hf : ∀ k ∈ made, Fine k) (t : Store) (b : Bytes)
    (hb : some b ∈ items d t) (k : PubKey) (hk : PubKey.unmarshal utf8 b = some k) : k ∈ made := by
  cases t with
  | db =>
    obtain ⟨r, hr, he⟩ := List.mem_map.mp hb
    obtain ⟨k', hk', c, hc, -, hd⟩ := h.rows r hr
    rw [hd, Base64.decode_encode] at he
    cases he
    have f := hf k' hk'
    rw [C91_round_trip utf8 k' _ f.id f.signer f.sig f.expire f.usage f.x f.y hc] at hk
    cases hk
    exact hk'
  | dir =>
    obtain ⟨f, hfm, he⟩ := List.mem_map.mp hb
    obtain ⟨k', hk', c, n, hc, rfl, -⟩ := h.files f hfm
    cases he
    have f := hf k' hk'
    by_cases hn : n < c.length
    · rw [cut_unreadable f hc n hn] at hk; cases hk
    · rw [List.take_of_length_le (by omega), C91_round_trip utf8 k' c f.id f.signer f.sig f.expire f.usage f.x f.y hc] at hk
      cases hk
      exact hk'

/-! ### histories -/

/-- The invariant. -/
structure WInv (P : Prims) (utf8 : Bytes → Bool) (wh : Prop) (g : Generator) (w : World) : Prop where
  gen : w.pool.gen = g
  disk : DiskOk utf8 wh w.made w.disk
  keys : ∀ r ∈ w.pool.keys, r.2.keyID = r.1 ∧ r.2 ∈ w.made
  made : ∀ k ∈ w.made, Signed P k ∧ k.usage = g.usage ∧ ∃ priv, g.keys = some (k.signer, priv)
  handed : ∀ k ∈ w.handed, k ∈ w.made

/-- None of the writes of the step breaks off. -/
def Op.NoCut : Op → Prop
  | .current outs _ _ _ => ∀ s n, outs s ≠ .cut n
  | .save outs _ _ => ∀ s n, outs s ≠ .cut n
  | _ => True

theorem lookup_mem {p : Pool} {now : Int} {id : Bytes} {k : PubKey} (h : p.lookup now id = .ok k) : (id, k) ∈ p.keys := by
  unfold Pool.lookup at h
  cases hf : p.find id with
  | none => rw [hf] at h; cases h
  | some k' =>
    rw [hf] at h
    dsimp only at h
    by_cases he : k'.expire > now
    · rw [if_pos he] at h
      cases h
      exact find_mem hf
    · rw [if_neg he] at h; cases h

/-- What `current` does to the issuer. -/
theorem current_cases (P : Prims) (utf8 : Bytes → Bool) (ss : List Store) (outs : Store → Out) (now : Int) (x y : Nat) (w : World) :
    ((current P utf8 ss outs now x y w).1 = w) ∨
    ∃ pub priv, w.pool.gen.keys = some (pub, priv) ∧ w.pool.needsKey now = true ∧
      let k := genKey P w.pool.gen.usage w.pool.gen.expireTime pub priv now x y
      let r := writeKey utf8 ss outs k w.disk
      (current P utf8 ss outs now x y w).1 = ⟨(w.pool.currentKey P now x y r.2).1, r.1, k :: w.made, if r.2 then k :: w.handed else w.handed⟩ := by
  unfold current
  cases hk : w.pool.gen.keys with
  | none => exact .inl rfl
  | some kk =>
    obtain ⟨pub, priv⟩ := kk
    dsimp only
    cases hn : w.pool.needsKey now with
    | false => exact .inl rfl
    | true => exact .inr ⟨pub, priv, rfl, rfl, rfl⟩

theorem step_made (P : Prims) (utf8 : Bytes → Bool) (ss : List Store) (w : World) (op : Op) : w.made <:+ (step P utf8 ss w op).made := by
  cases op with
  | current outs now x y =>
    show w.made <:+ (current P utf8 ss outs now x y w).1.made
    rcases current_cases P utf8 ss outs now x y w with h | ⟨pub, priv, -, -, h⟩
    · rw [h]; exact List.suffix_refl _
    · rw [h]; exact List.suffix_cons _ _
  | save outs now id =>
    show w.made <:+ (save utf8 ss outs now id w).1.made
    unfold save
    cases w.pool.lookup now id <;> exact List.suffix_refl _
  | restart vs => exact List.suffix_refl _
  | load now => exact List.suffix_refl _

theorem run_made (P : Prims) (utf8 : Bytes → Bool) (ss : List Store) (ops : List Op) (w : World) : w.made <:+ (run P utf8 ss w ops).made := by
  induction ops generalizing w with
  | nil => exact List.suffix_refl _
  | cons op ops ih => exact (step_made P utf8 ss w op).trans (ih _)

theorem Sound.before {w w' : World} (h : Sound w') (hm : w.made <:+ w'.made) : Sound w :=
  ⟨fun k hk => h.fine k (hm.subset hk), (hm.map PubKey.keyID).sublist.nodup h.ids⟩

theorem Sound.inj {w : World} (h : Sound w) : ∀ a ∈ w.made, ∀ c ∈ w.made, a.keyID = c.keyID → a = c := by
  have := h.ids
  revert this
  generalize w.made = l
  intro hn
  induction l with
  | nil => exact nofun
  | cons e l ih =>
    rw [List.map_cons, List.nodup_cons] at hn
    intro a ha c hc he
    rcases List.mem_cons.mp ha with h1 | h1 <;> rcases List.mem_cons.mp hc with h2 | h2
    · rw [h1, h2]
    · exact absurd (List.mem_map.mpr ⟨c, h2, by rw [← he, h1]⟩) hn.1
    · exact absurd (List.mem_map.mpr ⟨a, h1, by rw [he, h2]⟩) hn.1
    · exact ih hn.2 a h1 c h2 he

theorem step_inv {P : Prims} {utf8 : Bytes → Bool} {wh : Prop} {g : Generator} (hg : GenOk P g) (ss : List Store) {w : World} (h : WInv P utf8 wh g w) (op : Op)
    (hwh : wh → op.NoCut) (hs : Sound (step P utf8 ss w op)) : WInv P utf8 wh g (step P utf8 ss w op) := by
  cases op with
  | current outs now x y =>
    replace hs : Sound (current P utf8 ss outs now x y w).1 := hs
    show WInv P utf8 wh g (current P utf8 ss outs now x y w).1
    rcases current_cases P utf8 ss outs now x y w with he | ⟨pub, priv, hk, hn, he⟩
    · rw [he]; exact h
    · rw [he]
      have hk' : g.keys = some (pub, priv) := by rw [← h.gen]; exact hk
      refine ⟨?_, ?_, ?_, ?_, ?_⟩
      · exact (currentKey_ok now x y _ w.pool (by rw [h.gen]; exact hg)).1.1.trans h.gen
      · exact writeKey_ok outs hwh ss (h.disk.mono _) (.head _)
      · show ∀ r ∈ (w.pool.currentKey P now x y _).1.keys, _
        unfold Pool.currentKey
        rw [hk, hn]
        dsimp only
        cases (writeKey utf8 ss outs (genKey P w.pool.gen.usage w.pool.gen.expireTime pub priv now x y) w.disk).2 with
        | false => exact fun r hr => ⟨(h.keys r hr).1, .tail _ (h.keys r hr).2⟩
        | true =>
          intro r hr
          rcases List.mem_cons.mp hr with rfl | hr
          · exact ⟨rfl, .head _⟩
          · exact ⟨(h.keys r hr).1, .tail _ (h.keys r hr).2⟩
      · intro k hkm
        rcases List.mem_cons.mp hkm with rfl | hkm
        · exact ⟨⟨rfl, hg _ _ hk' _⟩, by rw [← h.gen]; rfl, priv, hk'⟩
        · exact h.made k hkm
      · intro k hkm
        cases hw : (writeKey utf8 ss outs (genKey P w.pool.gen.usage w.pool.gen.expireTime pub priv now x y) w.disk).2 with
        | false => dsimp only at hkm; rw [hw] at hkm; exact .tail _ (h.handed k hkm)
        | true =>
          dsimp only at hkm
          rw [hw] at hkm
          rcases List.mem_cons.mp hkm with rfl | hkm
          · exact .head _
          · exact .tail _ (h.handed k hkm)
  | save outs now id =>
    show WInv P utf8 wh g (save utf8 ss outs now id w).1
    unfold save
    cases hl : w.pool.lookup now id with
    | error e => exact h
    | ok k =>
      have hk := (h.keys _ (lookup_mem hl)).2
      exact ⟨h.gen, writeKey_ok outs hwh ss h.disk hk, h.keys, h.made, h.handed⟩
  | restart vs => exact ⟨h.gen, h.disk, nofun, h.made, h.handed⟩
  | load now =>
    have := load_keys P utf8 now w.made w.disk ss (disk_items h.disk hs.fine) w.pool h.keys
    exact ⟨this.2.trans h.gen, h.disk, this.1, h.made, h.handed⟩

theorem start_inv (P : Prims) (utf8 : Bytes → Bool) (wh : Prop) (g : Generator) (vs : List Bytes) : WInv P utf8 wh g (start g vs) :=
  ⟨rfl, ⟨nofun, nofun⟩, nofun, nofun, nofun⟩

/-- An invariant of sound histories. -/
theorem run_keeps {P : Prims} {utf8 : Bytes → Bool} {wh : Prop} {g : Generator} (hg : GenOk P g) (ss : List Store) (Q : World → Prop) (Good : Op → Prop)
    (hq : ∀ w op, WInv P utf8 wh g w → Sound (step P utf8 ss w op) → Good op → Q w → Q (step P utf8 ss w op)) (ops : List Op)
    (hwh : wh → ∀ op ∈ ops, op.NoCut) (hgood : ∀ op ∈ ops, Good op) (w : World) (h : WInv P utf8 wh g w) (hw : Q w) (hs : Sound (run P utf8 ss w ops)) :
    WInv P utf8 wh g (run P utf8 ss w ops) ∧ Q (run P utf8 ss w ops) := by
  induction ops generalizing w with
  | nil => exact ⟨h, hw⟩
  | cons op ops ih =>
    have hs1 : Sound (step P utf8 ss w op) := Sound.before hs (run_made P utf8 ss ops _)
    exact ih (fun hh o ho => hwh hh o (.tail _ ho)) (fun o ho => hgood o (.tail _ ho)) _ (step_inv hg ss h op (fun hh => hwh hh op (.head _)) hs1)
      (hq w op h hs1 (hgood op (.head _)) hw) hs

/-- No saving of a key breaks off. -/
def Op.SaveWhole : Op → Prop
  | .save outs _ _ => ∀ s n, outs s ≠ .cut n
  | _ => True

/-- The statement of the database is done when a new key is written. -/
def Op.DbWorks : Op → Prop
  | .current outs _ _ _ => outs .db = .ok
  | _ => True

theorem on_file {P : Prims} {utf8 : Bytes → Bool} {wh : Prop} {g : Generator} (hg : GenOk P g) (ss : List Store) (hdir : Store.dir ∈ ss) (vs : List Bytes) (ops : List Op)
    (hwh : wh → ∀ op ∈ ops, op.NoCut) (hcut : ∀ op ∈ ops, op.SaveWhole) (hs : Sound (run P utf8 ss (start g vs) ops)) :
    WInv P utf8 wh g (run P utf8 ss (start g vs) ops) ∧ ∀ k ∈ (run P utf8 ss (start g vs) ops).handed, OnFile utf8 (run P utf8 ss (start g vs) ops).disk k := by
  refine run_keeps hg ss (fun w => ∀ k ∈ w.handed, OnFile utf8 w.disk k) Op.SaveWhole ?_ ops hwh hcut _ (start_inv P utf8 wh g vs) nofun hs
  intro w op h hs hgood hq
  cases op with
  | current outs now x y =>
    replace hs : Sound (current P utf8 ss outs now x y w).1 := hs
    show ∀ k ∈ (current P utf8 ss outs now x y w).1.handed, OnFile utf8 (current P utf8 ss outs now x y w).1.disk k
    rcases current_cases P utf8 ss outs now x y w with he | ⟨pub, priv, -, -, he⟩
    · rw [he]; exact hq
    · rw [he] at hs ⊢
      dsimp only
      revert hs
      generalize genKey P w.pool.gen.usage w.pool.gen.expireTime pub priv now x y = nk
      intro hs
      have hold : ∀ k ∈ w.handed, OnFile utf8 (writeKey utf8 ss outs nk w.disk).1 k := by
        intro k hk
        refine writeKey_file outs ss (hq k hk) (.inl fun hid => ?_)
        have := hs.ids
        rw [List.map_cons, List.nodup_cons] at this
        exact this.1 (List.mem_map.mpr ⟨k, h.handed k hk, hid⟩)
      cases hw : (writeKey utf8 ss outs nk w.disk).2 with
      | false => exact hold
      | true =>
        intro k hk
        rcases List.mem_cons.mp hk with rfl | hk
        · unfold writeKey at hw ⊢
          cases hb : k.marshal utf8 with
          | none => rw [hb] at hw; cases hw
          | some b =>
            rw [hb] at hw
            exact writeAll_new outs ss hdir hb hw
        · exact hold k hk
  | save outs now id =>
    show ∀ k ∈ (save utf8 ss outs now id w).1.handed, OnFile utf8 (save utf8 ss outs now id w).1.disk k
    replace hs : Sound (save utf8 ss outs now id w).1 := hs
    unfold save at hs ⊢
    cases hl : w.pool.lookup now id with
    | error e => exact hq
    | ok k' =>
      rw [hl] at hs
      have hk' := (h.keys _ (lookup_mem hl)).2
      intro k hk
      refine writeKey_file outs ss (hq k hk) ?_
      by_cases hid : k.keyID = k'.keyID
      · exact .inr ⟨hs.inj k (h.handed k hk) k' hk' hid, hgood⟩
      · exact .inl hid
  | restart vs => exact hq
  | load now => exact hq

theorem in_db {P : Prims} {utf8 : Bytes → Bool} {wh : Prop} {g : Generator} (hg : GenOk P g) (ss : List Store) (hdb : Store.db ∈ ss) (vs : List Bytes) (ops : List Op)
    (hwh : wh → ∀ op ∈ ops, op.NoCut) (hok : ∀ op ∈ ops, op.DbWorks) (hs : Sound (run P utf8 ss (start g vs) ops)) :
    WInv P utf8 wh g (run P utf8 ss (start g vs) ops) ∧ ∀ k ∈ (run P utf8 ss (start g vs) ops).handed, InDb utf8 (run P utf8 ss (start g vs) ops).disk k := by
  refine run_keeps hg ss (fun w => ∀ k ∈ w.handed, InDb utf8 w.disk k) Op.DbWorks ?_ ops hwh hok _ (start_inv P utf8 wh g vs) nofun hs
  intro w op h hs hgood hq
  cases op with
  | current outs now x y =>
    replace hs : Sound (current P utf8 ss outs now x y w).1 := hs
    show ∀ k ∈ (current P utf8 ss outs now x y w).1.handed, InDb utf8 (current P utf8 ss outs now x y w).1.disk k
    rcases current_cases P utf8 ss outs now x y w with he | ⟨pub, priv, -, -, he⟩
    · rw [he]; exact hq
    · rw [he] at hs ⊢
      dsimp only
      revert hs
      generalize genKey P w.pool.gen.usage w.pool.gen.expireTime pub priv now x y = nk
      intro hs
      have hold : ∀ k ∈ w.handed, InDb utf8 (writeKey utf8 ss outs nk w.disk).1 k := fun k hk => writeKey_db outs ss nk (hq k hk)
      cases hw : (writeKey utf8 ss outs nk w.disk).2 with
      | false => exact hold
      | true =>
        intro k hk
        rcases List.mem_cons.mp hk with rfl | hk
        · unfold writeKey at hw ⊢
          cases hb : k.marshal utf8 with
          | none => rw [hb] at hw; cases hw
          | some b =>
            rw [hb] at hw
            exact writeAll_row (wh := False) outs hgood nofun _ hs.inj ss hdb
              ⟨fun f hf => by
                obtain ⟨k', h1, c, n, h2, h3, -⟩ := (h.disk.mono k).files f hf
                exact ⟨k', h1, c, n, h2, h3, nofun⟩, (h.disk.mono k).rows⟩ (.head _) hb hw
        · exact hold k hk
  | save outs now id =>
    show ∀ k ∈ (save utf8 ss outs now id w).1.handed, InDb utf8 (save utf8 ss outs now id w).1.disk k
    unfold save
    cases hl : w.pool.lookup now id with
    | error e => exact hq
    | ok k' => exact fun k hk => writeKey_db outs ss k' (hq k hk)
  | restart vs => exact hq
  | load now => exact hq

/-! ### C138 -/

/-- C138: with a key directory, each key the issuer hands out is in its file, completely, whatever else happens; if saving a
key does not break off. -/
theorem C138_on_file (P : Prims) (utf8 : Bytes → Bool) (g : Generator) (hg : GenOk P g) (ss : List Store) (hdir : Store.dir ∈ ss) (vs : List Bytes) (ops : List Op)
    (hcut : ∀ outs now id, Op.save outs now id ∈ ops → ∀ s n, outs s ≠ .cut n) (hs : Sound (run P utf8 ss (start g vs) ops)) :
    ∀ k ∈ (run P utf8 ss (start g vs) ops).handed, ∃ b, k.marshal utf8 = some b ∧ (fileName k.keyID, b) ∈ (run P utf8 ss (start g vs) ops).disk.files :=
  (on_file (wh := False) hg ss hdir vs ops nofun (fun op ho => by
    cases op with
    | save outs now id => exact hcut outs now id ho
    | _ => trivial) hs).2

/-- The keys of a storage that is complete. -/
theorem all_readable {utf8 : Bytes → Bool} {w : World} (hs : Sound w) (hd : DiskOk utf8 True w.made w.disk) {k : PubKey} (hk : k ∈ w.made) (ts : List Store) :
    ∀ t ∈ ts, ∀ o ∈ items w.disk t, ∃ b k', o = some b ∧ PubKey.unmarshal utf8 b = some k' ∧ (k'.keyID = k.keyID → k' = k) := by
  intro t _ o ho
  cases t with
  | db =>
    obtain ⟨r, hr, rfl⟩ := List.mem_map.mp ho
    obtain ⟨k', hk', c, hc, -, hd⟩ := hd.rows r hr
    have f := hs.fine k' hk'
    exact ⟨c, k', by rw [hd, Base64.decode_encode], C91_round_trip utf8 k' c f.id f.signer f.sig f.expire f.usage f.x f.y hc, hs.inj k' hk' k hk⟩
  | dir =>
    obtain ⟨f, hf, rfl⟩ := List.mem_map.mp ho
    obtain ⟨k', hk', c, n, hc, rfl, hn⟩ := hd.files f hf
    have f := hs.fine k' hk'
    refine ⟨c, k', ?_, C91_round_trip utf8 k' c f.id f.signer f.sig f.expire f.usage f.x f.y hc, hs.inj k' hk' k hk⟩
    rw [List.take_of_length_le (hn trivial)]

/-- C138: if no write of a file breaks off, then whoever checks tokens of the issuer and loads the keys from its storages knows
each key it handed out, as long as it has not expired. -/
theorem C138_loaded (P : Prims) (utf8 : Bytes → Bool) (g : Generator) (hg : GenOk P g) (ss : List Store) (hdir : Store.dir ∈ ss) (vs : List Bytes) (ops : List Op)
    (hcut : ∀ op ∈ ops, op.NoCut) (hs : Sound (run P utf8 ss (start g vs) ops))
    (k : PubKey) (hk : k ∈ (run P utf8 ss (start g vs) ops).handed) (q : Pool) (hq : Checks q k) (now : Int) (hn : now < k.expire) (ts : List Store) (ht : Store.dir ∈ ts) :
    (load P utf8 now (run P utf8 ss (start g vs) ops).disk ts q).2 = true ∧
    (load P utf8 now (run P utf8 ss (start g vs) ops).disk ts q).1.lookup now k.keyID = .ok k := by
  obtain ⟨h1, h2⟩ := on_file (wh := True) hg ss hdir vs ops (fun _ => hcut) (fun op ho => by
    cases op with
    | save outs now id => exact hcut _ ho
    | _ => trivial) hs
  obtain ⟨b, hb, hm⟩ := h2 k hk
  have hkm := h1.handed k hk
  have f := hs.fine k hkm
  obtain ⟨h3, h4⟩ := load_find (now := now) ts (all_readable hs h1.disk hkm ts) q (.inl hq.fresh) ⟨hq.usage, by omega, hq.signer, (h1.made k hkm).1⟩
  refine ⟨h3, ?_⟩
  have h5 := h4 (.inl ⟨.dir, ht, b, List.mem_map.mpr ⟨_, hm, rfl⟩, C91_round_trip utf8 k b f.id f.signer f.sig f.expire f.usage f.x f.y hb⟩)
  unfold Pool.lookup
  rw [h5]
  dsimp only
  rw [if_pos (by omega)]

/-- C138: with a key database whose statements are done, whoever checks tokens of the issuer and shares the database finds each
key it handed out by its id, as long as it has not expired, whatever else happens. -/
theorem C138_fetched (P : Prims) (utf8 : Bytes → Bool) (g : Generator) (hg : GenOk P g) (ss : List Store) (hdb : Store.db ∈ ss) (vs : List Bytes) (ops : List Op)
    (hok : ∀ outs now x y, Op.current outs now x y ∈ ops → outs .db = .ok) (hs : Sound (run P utf8 ss (start g vs) ops))
    (k : PubKey) (hk : k ∈ (run P utf8 ss (start g vs) ops).handed) (q : Pool) (hq : Checks q k) (now : Int) (hn : now < k.expire) :
    (q.lookupFetch P utf8 now k.keyID [.storage (fetch (run P utf8 ss (start g vs) ops).disk k.keyID)]).2 = .ok k := by
  obtain ⟨h1, h2⟩ := in_db (wh := False) hg ss hdb vs ops nofun (fun op ho => by
    cases op with
    | current outs now x y => exact hok outs now x y ho
    | _ => trivial) hs
  obtain ⟨b, r, hb, hr, hid, hdat⟩ := h2 k hk
  have hkm := h1.handed k hk
  have f := hs.fine k hkm
  have hfetch : fetch (run P utf8 ss (start g vs) ops).disk k.keyID = some b := by
    unfold fetch
    cases hf : (run P utf8 ss (start g vs) ops).disk.rows.find? fun r => r.id == hex k.keyID with
    | none =>
      have := List.find?_eq_none.mp hf r hr
      rw [hid] at this
      simp at this
    | some r' =>
      have he : r'.id = hex k.keyID := eq_of_beq (List.find?_some (p := fun r : Row => r.id == hex k.keyID) hf)
      obtain ⟨k', hk', b', hb', hi', hd'⟩ := h1.disk.rows r' (List.mem_of_find?_eq_some hf)
      have : k' = k := hs.inj k' hk' k hkm (hex_inj (hi'.symm.trans he))
      subst this
      rw [hb] at hb'
      cases hb'
      dsimp only
      rw [hd', Base64.decode_encode]
  have hl : q.lookup now k.keyID = .error .notFound := by
    unfold Pool.lookup
    rw [hq.fresh]
  unfold Pool.lookupFetch
  rw [hl, hfetch]
  have hacc : Accepted P q now k := ⟨hq.usage, by omega, hq.signer, (h1.made k hkm).1⟩
  show (q.take P utf8 now k.keyID b).2 = .ok k
  unfold Pool.take
  rw [C91_round_trip utf8 k b f.id f.signer f.sig f.expire f.usage f.x f.y hb]
  dsimp only
  have hv : k.verify P k.signer = true := by
    unfold PubKey.verify PubKey.calc
    rw [if_neg (by simp [hacc.signed.id]), hacc.signed.id]
    exact hacc.signed.sig
  have hload : (q.loadKey P now k).2 = .ok k.keyID := by
    unfold Pool.loadKey
    rw [if_neg (fun hh => hh.2 (hq.usage hh.1)), if_neg (by omega), if_neg (by simp [Pool.hasVerifyKey, hq.signer]), if_neg (by rw [hv]; decide), hq.fresh]
  rw [hload]
  simp [usable]

/-- C138: a file that breaks off is not taken for a key. -/
theorem C138_cut_file (utf8 : Bytes → Bool) (k : PubKey) (hf : Fine k) (b : Bytes) (h : k.marshal utf8 = some b) (n : Nat) (hn : n < b.length) :
    PubKey.unmarshal utf8 (b.take n) = none := cut_unreadable hf h n hn

/-- C138, where the code disagrees: if the database cannot store a new key, this is not noticed. The key is handed out all the
same, and nobody who relies on the database finds it. -/
theorem C138_unreported_violated (P : Prims) (utf8 : Bytes → Bool) (outs : Store → Out) (ho : outs .db = .failed) (now : Int) (x y : Nat) (w : World) (pub priv : Bytes)
    (hk : w.pool.gen.keys = some (pub, priv)) (hn : w.pool.needsKey now = true) (hu : utf8 w.pool.gen.usage = true)
    (hr : ∀ r ∈ w.disk.rows, r.id ≠ hex (genKey P w.pool.gen.usage w.pool.gen.expireTime pub priv now x y).keyID) :
    ∃ k prev, (current P utf8 [.db] outs now x y w).2 = .ok (k, prev) ∧ (current P utf8 [.db] outs now x y w).1.disk = w.disk ∧
      ∀ q : Pool, ∀ now', q.find k.keyID = none → (q.lookupFetch P utf8 now' k.keyID [.storage (fetch (current P utf8 [.db] outs now x y w).1.disk k.keyID)]).2 = .error .fetch := by
  obtain ⟨b, hb⟩ := C91_writable utf8 (genKey P w.pool.gen.usage w.pool.gen.expireTime pub priv now x y) hu
  have hw : writeKey utf8 [.db] outs (genKey P w.pool.gen.usage w.pool.gen.expireTime pub priv now x y) w.disk = (w.disk, true) := by
    unfold writeKey
    rw [hb]
    show (insertRow (outs .db) _ _ _ w.disk, true) = _
    unfold insertRow
    rw [ho, if_neg (fun h => nomatch h.1)]
  unfold current
  rw [hk]
  dsimp only
  rw [if_pos hn, hw]
  dsimp only
  unfold Pool.currentKey
  rw [hk]
  dsimp only
  rw [if_pos hn]
  refine ⟨_, _, rfl, rfl, fun q now' hq => ?_⟩
  have hf : fetch w.disk (genKey P w.pool.gen.usage w.pool.gen.expireTime pub priv now x y).keyID = none := by
    unfold fetch
    rw [List.find?_eq_none.mpr]
    intro r hrm
    have := hr r hrm
    simpa using this
  unfold Pool.lookupFetch Pool.lookup
  rw [hq]
  show (match fetchAll P utf8 now' q [.storage (fetch w.disk (genKey P w.pool.gen.usage w.pool.gen.expireTime pub priv now x y).keyID)] with
    | (p', none) => (p', .error .fetch)
    | (p', some d) => Pool.take P utf8 p' now' _ d : Pool × Except Err PubKey).2 = _
  rw [hf]
  rfl

/-- C138, where the code disagrees: one file that breaks off hides all keys after it in the directory. -/
theorem C138_damaged_violated (P : Prims) (utf8 : Bytes → Bool) (now : Int) (rows : List Row) (fs gs : List (Bytes × Bytes)) (k : PubKey) (hf : Fine k) (b : Bytes)
    (h : k.marshal utf8 = some b) (n : Nat) (hn : n < b.length) (q : Pool) :
    load P utf8 now ⟨rows, fs ++ (fileName k.keyID, b.take n) :: gs⟩ [.dir] q = ((load P utf8 now ⟨rows, fs⟩ [.dir] q).1, false) := by
  have key : ∀ (fs : List (Bytes × Bytes)) (q : Pool), loadItems P utf8 now ((fs ++ (fileName k.keyID, b.take n) :: gs).map fun f => some f.2) q =
      ((loadItems P utf8 now (fs.map fun f => some f.2) q).1, false) := by
    intro fs
    induction fs with
    | nil =>
      intro q
      show loadItems P utf8 now (some (b.take n) :: _) q = (q, false)
      unfold loadItems
      rw [cut_unreadable hf h n hn]
    | cons f fs ih =>
      intro q
      rw [List.cons_append, List.map_cons, List.map_cons]
      unfold loadItems
      cases PubKey.unmarshal utf8 f.2 with
      | none => rfl
      | some k' => exact ih _
  unfold load items
  rw [key fs q]
  dsimp only
  cases loadItems P utf8 now (fs.map fun f => some f.2) q with
  | mk p ok => cases ok <;> rfl

/-! ### the hypotheses can be met -/

/-- A toy hash and signature: the "signature" is 64 bytes and says who signed. -/
def tP : Prims where
  sha256 b := Verif.Mix.fix32 ((b.foldl (fun a c => a * 31 + c) 7) :: b.take 31)
  sign k _ := Verif.Mix.fix64 (k.drop 32)
  verify p _ s := s == Verif.Mix.fix64 p

def tSigner : Bytes := List.replicate 32 3
def tGen : Generator := ⟨[77], 1000, some (tSigner, List.replicate 32 1 ++ tSigner)⟩

theorem tGen_ok : GenOk tP tGen := by
  intro pub priv h m
  cases h
  show (Verif.Mix.fix64 ((List.replicate 32 1 ++ tSigner).drop 32) == Verif.Mix.fix64 tSigner) = true
  decide +kernel

def fine : Store → Out := fun _ => .ok
def full : Store → Out := fun s => if s = .dir then .failed else .ok

/-- Two keys are handed out, one is saved again, one attempt finds the disk full; the issuer is started again in between. -/
def tOps : List Op := [.current fine 100 6 8, .save fine 150 (genKey tP [77] 1000 tSigner (List.replicate 32 1 ++ tSigner) 100 6 8).keyID, .restart [tSigner], .load 160,
  .current full 170 4 4, .current fine 180 7 9]

def tKey : PubKey := genKey tP [77] 1000 tSigner (List.replicate 32 1 ++ tSigner) 100 6 8

theorem tOps_sound : Sound (run tP (fun _ => true) [.dir, .db] (start tGen [tSigner]) tOps) where
  fine := by
    have h : ∀ k ∈ (run tP (fun _ => true) [.dir, .db] (start tGen [tSigner]) tOps).made, k.keyID.length = 32 ∧ k.signer.length = 32 ∧ k.signature.length = 64 ∧
        (-2 ^ 63 ≤ k.expire ∧ k.expire < 2 ^ 63) ∧ k.usage.length < 2 ^ 28 ∧ (base256 k.x).length < 2 ^ 28 ∧ (base256 k.y).length < 2 ^ 28 := by decide +kernel
    intro k hk
    obtain ⟨h1, h2, h3, h4, h5, h6, h7⟩ := h k hk
    exact ⟨h1, h2, h3, h4, h5, h6, h7⟩
  ids := by decide +kernel

example : (run tP (fun _ => true) [.dir, .db] (start tGen [tSigner]) tOps).handed.length = 2 ∧ (run tP (fun _ => true) [.dir, .db] (start tGen [tSigner]) tOps).made.length = 3 ∧
    tKey ∈ (run tP (fun _ => true) [.dir, .db] (start tGen [tSigner]) tOps).handed := by decide +kernel

theorem tOps_noCut : ∀ op ∈ tOps, op.NoCut := by
  intro op ho
  simp only [tOps, List.mem_cons, List.not_mem_nil, or_false] at ho
  have h1 : ∀ s n, fine s ≠ .cut n := fun _ _ => nofun
  have h2 : ∀ s n, full s ≠ .cut n := by
    intro s n h
    cases s <;> cases h
  rcases ho with rfl | rfl | rfl | rfl | rfl | rfl
  · exact h1
  · exact h1
  · trivial
  · trivial
  · exact h2
  · exact h1

/-- A client that knows the signer. -/
def tClient : Pool := { Pool.new ⟨[], 0, none⟩ with verifyKeys := [tSigner] }

theorem tClient_checks : Checks tClient tKey := ⟨fun h => absurd rfl h, by decide +kernel, rfl⟩

example : (load tP (fun _ => true) 500 (run tP (fun _ => true) [.dir, .db] (start tGen [tSigner]) tOps).disk [.db, .dir] tClient).1.lookup 500 tKey.keyID = .ok tKey :=
  (C138_loaded tP _ tGen tGen_ok _ (by decide) _ tOps tOps_noCut tOps_sound tKey (by decide +kernel) tClient tClient_checks 500 (by decide +kernel) _ (by decide)).2

example : (tClient.lookupFetch tP (fun _ => true) 500 tKey.keyID [.storage (fetch (run tP (fun _ => true) [.dir, .db] (start tGen [tSigner]) tOps).disk tKey.keyID)]).2 = .ok tKey :=
  C138_fetched tP _ tGen tGen_ok _ (by decide) _ tOps (by
    intro outs now x y h
    simp only [tOps, List.mem_cons, List.not_mem_nil, or_false, reduceCtorEq, false_or, Op.current.injEq] at h
    rcases h with ⟨rfl, -⟩ | ⟨rfl, -⟩ | ⟨rfl, -⟩ <;> rfl) tOps_sound tKey (by decide +kernel) tClient tClient_checks 500 (by decide +kernel)

example : ∃ b, tKey.marshal (fun _ => true) = some b ∧ (fileName tKey.keyID, b) ∈ (run tP (fun _ => true) [.dir, .db] (start tGen [tSigner]) tOps).disk.files :=
  C138_on_file tP _ tGen tGen_ok _ (by decide) _ tOps (fun _ _ _ h => tOps_noCut _ h) tOps_sound tKey (by decide +kernel)

/-- `C138_unreported_violated`: the first key of an issuer with a database that refuses it. -/
example : ∃ (w : World) (pub priv : Bytes), w.pool.gen.keys = some (pub, priv) ∧ w.pool.needsKey 100 = true ∧
    (∀ r ∈ w.disk.rows, r.id ≠ hex (genKey tP w.pool.gen.usage w.pool.gen.expireTime pub priv 100 6 8).keyID) :=
  ⟨start tGen [tSigner], tSigner, List.replicate 32 1 ++ tSigner, rfl, rfl, nofun⟩

/-- `C138_cut_file`, `C138_damaged_violated`: the key of the history. -/
example : Fine tKey ∧ ∃ b, tKey.marshal (fun _ => true) = some b ∧ 10 < b.length := by
  refine ⟨tOps_sound.fine tKey (by decide +kernel), ?_⟩
  cases h : tKey.marshal (fun _ => true) with
  | none => exact absurd h (by decide +kernel)
  | some b =>
    refine ⟨b, rfl, ?_⟩
    have : ((tKey.marshal (fun _ => true)).getD []).length > 10 := by decide +kernel
    rw [h] at this
    exact this

end Verif.Guard.KeyStore

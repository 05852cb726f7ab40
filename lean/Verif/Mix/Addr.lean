/-
Mix address lists (mix/mixaddr/addrlist.go), C28, their signed statements, C78, and the
key list of a mix (mix/mixaddr/privkey.go), C79.
-/
import Verif.Mix.Props

namespace Verif.Mix

/-! ### Address lists -/

/-- The signature functions used for statements. -/
structure Ed where
  hash : Bytes → Bytes
  sign : Bytes → Bytes → Bytes
  verify : Bytes → Bytes → Bytes → Bool

/-- `binary.BigEndian.PutUint64`. -/
def be64 (n : Int) : Bytes := (List.range 8).map fun j => UInt8.ofNat ((n % 2 ^ 64).toNat / 256 ^ (7 - j))

/-- `Address.image` (addrlist.go:39-49). -/
def MAddr.image (a : MAddr) : Bytes := a.pubkey ++ be64 a.expire ++ a.address ++ a.tokenKey

/-- The bytes that `AddressList.hash` hashes (addrlist.go:51-58). -/
def images (l : List MAddr) : Bytes := l.flatMap MAddr.image

/-- `AddressStatement` (addrlist.go:29-34). -/
structure Stmt where
  addresses : List MAddr
  signature : Bytes
  publicKey : Bytes

/-- `copy` into a 64 byte array. -/
def fix64 (b : Bytes) : Bytes := b.take 64 ++ List.replicate (64 - b.length) 0

/-- `AddressList.Statement` (addrlist.go:60-83): the public key is the second half of the
private key. -/
def statement (E : Ed) (priv : Bytes) (l : List MAddr) : Stmt :=
  ⟨l, E.sign priv (E.hash (images l)), priv.drop 32⟩

/-- `AddressStatement.Verify` (addrlist.go:85-98). -/
def Stmt.verify (E : Ed) (s : Stmt) : Bool :=
  E.verify (fix32 s.publicKey) (E.hash (images s.addresses)) (fix64 s.signature)

/-- `AddressList.AddStatement` (addrlist.go:128-137). -/
def addStatement (E : Ed) (clock : Int) (l : List MAddr) (s : Stmt) : List MAddr :=
  if s.verify E then appendList clock l s.addresses else l

/-! ### C28 expiry -/

theorem filter_exact (p : MAddr → Bool) (l : List MAddr) :
    (l.filter p).Sublist l ∧ ∀ a, (l.filter p).count a = if p a then l.count a else 0 := by
  refine ⟨List.filter_sublist, fun a => ?_⟩
  split
  · rename_i h; exact List.count_filter h
  · rename_i h
    rw [List.count_eq_zero]
    intro hm
    exact h (List.mem_filter.mp hm).2

/-- C28: expiring keeps the addresses that expire later than the given time, each as
often as it was there and in the same order, and no others. A time of zero stands for
the current time. -/
theorem C28_expire_exact (clock now : Int) (l : List MAddr) :
    (expireList clock now l).Sublist l ∧
    (now ≠ 0 → ∀ a, (expireList clock now l).count a = if now < a.expire then l.count a else 0) ∧
    (now = 0 → ∀ a, (expireList clock now l).count a = if clock < a.expire then l.count a else 0) := by
  obtain ⟨h1, h2⟩ := filter_exact (fun e => decide ((if now = 0 then clock else now) < e.expire)) l
  refine ⟨h1, fun h0 a => ?_, fun h0 a => ?_⟩
  · have := h2 a
    simp only [h0, if_false, decide_eq_true_eq] at this
    simpa [expireList, h0] using this
  · subst h0
    simpa [expireList] using h2 a

/-- C28: appending keeps the list as it is and adds the unexpired addresses in order. -/
theorem C28_append_exact (clock : Int) (l adr : List MAddr) :
    ∃ new, appendList clock l adr = l ++ new ∧ new.Sublist adr ∧
      ∀ a, new.count a = if clock < a.expire then adr.count a else 0 := by
  obtain ⟨h1, h2⟩ := filter_exact (fun e => decide (clock < e.expire)) adr
  exact ⟨_, rfl, h1, fun a => by simpa using h2 a⟩

/-- C28: a statement adds addresses only if its signature verifies. -/
theorem C28_add_statement (E : Ed) (clock : Int) (l : List MAddr) (s : Stmt) :
    (s.verify E = false → addStatement E clock l s = l) ∧
    (s.verify E = true → ∀ a, a ∈ addStatement E clock l s ↔ a ∈ l ∨ (a ∈ s.addresses ∧ clock < a.expire)) := by
  unfold addStatement
  refine ⟨fun h => by simp [h], fun h a => ?_⟩
  simp [h, appendList, List.mem_append, List.mem_filter]

/-- C28: the random choice is one of the addresses, and there is one unless the list is
empty; every address can be chosen. -/
theorem C28_rand (l : List MAddr) :
    (∀ r a, randAddr r l = some a → a ∈ l) ∧ (∀ r, randAddr r l = none ↔ l = []) ∧
    (∀ a ∈ l, ∃ r, randAddr r l = some a) := by
  refine ⟨fun r a h => List.mem_of_getElem? h, fun r => ?_, fun a ha => ?_⟩
  · unfold randAddr
    cases l with
    | nil => simp
    | cons x xs =>
      simp only [List.getElem?_eq_none_iff, List.length_cons, reduceCtorEq, iff_false]
      have := Nat.mod_lt r (show 0 < xs.length + 1 by omega)
      omega
  · obtain ⟨i, hi, he⟩ := List.getElem_of_mem ha
    refine ⟨i, ?_⟩
    unfold randAddr
    rw [Nat.mod_eq_of_lt hi, List.getElem?_eq_getElem hi, he]

/-- Non-vacuity: an expired and an unexpired address. -/
example : expireList 0 10 [⟨[1], 5, [], []⟩, ⟨[2], 15, [], []⟩] = [⟨[2], 15, [], []⟩] := by decide

/-! ### C78 signed statements -/

/-- A statement that a mix signs verifies, if signatures do. -/
theorem C78_signed_verifies (E : Ed) (priv : Bytes) (hp : priv.length = 64)
    (hE : ∀ m, (E.sign priv m).length = 64 ∧ E.verify (priv.drop 32) m (E.sign priv m) = true) (l : List MAddr) :
    (statement E priv l).verify E = true := by
  unfold statement Stmt.verify
  have h1 : fix32 (priv.drop 32) = priv.drop 32 := fix32_of_length (by simp [hp])
  have h2 : fix64 (E.sign priv (E.hash (images l))) = E.sign priv (E.hash (images l)) := by
    simp [fix64, (hE _).1, List.take_of_length_le]
  simp only [h1, h2]
  exact (hE _).2

/-- Entries that cannot be confused: keys of fixed size and the same address lengths. -/
def SameShape : List MAddr → List MAddr → Prop
  | [], [] => True
  | a :: l, b :: m => a.pubkey.length = b.pubkey.length ∧ a.address.length = b.address.length ∧
      a.tokenKey.length = b.tokenKey.length ∧ SameShape l m
  | _, _ => False

theorem be64_length (n : Int) : (be64 n).length = 8 := by simp [be64]

theorem mod_step {x y k : Nat} (h1 : x % k = y % k) (h2 : x / k % 256 = y / k % 256) : x % (k * 256) = y % (k * 256) := by
  rw [Nat.mod_mul, Nat.mod_mul, h1, h2]

theorem be64_inj {m n : Int} (hm : I64 m) (hn : I64 n) (h : be64 m = be64 n) : m = n := by
  unfold I64 at hm hn
  have hd : ∀ j, j < 8 → (m % 2 ^ 64).toNat / 256 ^ (7 - j) % 256 = (n % 2 ^ 64).toNat / 256 ^ (7 - j) % 256 := by
    intro j hj
    have h' := congrArg (fun l => (l[j]?).map UInt8.toNat) h
    simpa [be64, hj] using h'
  have key : ∀ i, i ≤ 8 → (m % 2 ^ 64).toNat % 256 ^ i = (n % 2 ^ 64).toNat % 256 ^ i := by
    intro i
    induction i with
    | zero => intro _; simp [Nat.mod_one]
    | succ i ih =>
      intro hi
      rw [Nat.pow_succ]
      apply mod_step (ih (by omega))
      have := hd (7 - i) (by omega)
      rwa [show 7 - (7 - i) = i by omega] at this
  have := key 8 (by omega)
  omega

/-- C78, partial: lists of the same shape have different signed bytes. What is missing
are lists of other shapes, see `C78_resplit`. -/
theorem C78_images_injective_partial (l m : List MAddr) (hs : SameShape l m)
    (hl : ∀ a ∈ l, I64 a.expire) (hm : ∀ a ∈ m, I64 a.expire) (h : images l = images m) : l = m := by
  induction l generalizing m with
  | nil => cases m with
    | nil => rfl
    | cons b m => exact hs.elim
  | cons a l ih => cases m with
    | nil => exact hs.elim
    | cons b m =>
      obtain ⟨h1, h2, h3, h4⟩ := hs
      simp only [images, List.flatMap_cons, MAddr.image, List.append_assoc] at h
      obtain ⟨e1, h⟩ := List.append_inj h h1
      obtain ⟨e2, h⟩ := List.append_inj h (by rw [be64_length, be64_length])
      obtain ⟨e3, h⟩ := List.append_inj h h2
      obtain ⟨e4, h⟩ := List.append_inj h h3
      have e5 := be64_inj (hl a (List.mem_cons_self ..)) (hm b (List.mem_cons_self ..)) e2
      have := ih m h4 (fun x hx => hl x (List.mem_cons_of_mem _ hx)) (fun x hx => hm x (List.mem_cons_of_mem _ hx)) h
      rw [this]
      congr 1
      cases a; cases b
      simp_all

/-- C78 is violated: the signed bytes do not separate the fields, so the last byte of a
mix's address can be moved to its token key without the signature noticing: the altered
statement, which names another address, verifies. -/
theorem C78_resplit (E : Ed) (s : Stmt) (hv : s.verify E = true) (pre post : List MAddr) (a : MAddr) (addr : Bytes) (c : UInt8)
    (hs : s.addresses = pre ++ a :: post) (ha : a.address = addr ++ [c]) :
    ∃ s' : Stmt, s'.verify E = true ∧ s'.signature = s.signature ∧ s'.publicKey = s.publicKey ∧
      s'.addresses = pre ++ { a with address := addr, tokenKey := c :: a.tokenKey } :: post ∧ s'.addresses ≠ s.addresses := by
  refine ⟨⟨pre ++ { a with address := addr, tokenKey := c :: a.tokenKey } :: post, s.signature, s.publicKey⟩, ?_, rfl, rfl, rfl, ?_⟩
  · rw [← hv]
    unfold Stmt.verify
    have : images (pre ++ { a with address := addr, tokenKey := c :: a.tokenKey } :: post) = images s.addresses := by
      rw [hs]
      simp [images, MAddr.image, ha]
    simp only [this]
  · rw [hs]
    intro hc
    have := List.append_cancel_left hc
    simp only [List.cons.injEq, and_true] at this
    have := congrArg (fun x => x.address.length) this
    simp [ha] at this

/-- Non-vacuity: one mix "a@b", and the same statement naming "a@". -/
example : ∃ s' : Stmt, s'.addresses = [⟨[1], 5, [97, 64], [98, 2]⟩] ∧
    s'.verify ⟨fun b => b, fun _ m => m, fun _ m s => fix64 m == s⟩ = true := by
  obtain ⟨s', h1, -, -, h2, -⟩ := C78_resplit ⟨fun b => b, fun _ m => m, fun _ m s => fix64 m == s⟩
    ⟨[⟨[1], 5, [97, 64, 98], [2]⟩], images [⟨[1], 5, [97, 64, 98], [2]⟩], []⟩ (by decide) [] [] ⟨[1], 5, [97, 64, 98], [2]⟩ [97, 64] 98 rfl rfl
  exact ⟨s', h2, h1⟩

/-! ### C79 the key list of a mix -/

/-- `KeyEntry` (privkey.go:31-37). -/
structure KEntry where
  pubkey : Bytes
  privkey : Bytes
  expire : Int
  address : Bytes
  tokenKey : Bytes
  deriving DecidableEq, Repr

/-- `KeyList` (privkey.go:39-51): the key map, the addresses of the published statement
and the contents of the newest file in Safedir that was written completely. Go's map has
no order; the list order stands for the order of one iteration. -/
structure KeyList where
  keys : List (Bytes × KEntry)
  stmt : Option (List MAddr)
  saved : Option (List KEntry)

/-- `kl.Keys[k] = e`. -/
def setKey (k : Bytes) (e : KEntry) (m : List (Bytes × KEntry)) : List (Bytes × KEntry) :=
  (m.filter fun x => decide (x.1 ≠ k)) ++ [(k, e)]

/-- `updateStatement` (privkey.go:221-234). -/
def stmtOf (m : List (Bytes × KEntry)) : List MAddr :=
  m.map fun x => ⟨x.2.pubkey, x.2.expire, x.2.address, x.2.tokenKey⟩

/-- `GetPrivateKey` (privkey.go:70-83). -/
def KeyList.getPrivateKey (kl : KeyList) (now : Int) (pk : Bytes) : Option Bytes :=
  match kl.keys.lookup pk with
  | some e => if e.expire < now then none else some (fix32 e.privkey)
  | none => none

/-- `expire` (privkey.go:182-194). -/
def expireKeys (now : Int) (m : List (Bytes × KEntry)) : List (Bytes × KEntry) :=
  m.filter fun x => decide (¬ x.2.expire < now)

/-- Configuration of a key list: public key function, address, duration, token key. -/
structure KConf where
  pub : Bytes → Bytes
  address : Bytes
  duration : Int
  tokenKey : Bytes

/-- `AddKey` at time `now` with the random key `priv` (privkey.go:196-219); `wrote` says
whether the file could be written, which the code does not check. -/
def addKey (c : KConf) (now : Int) (priv : Bytes) (wrote : Bool) (kl : KeyList) : KeyList :=
  let keys := setKey (c.pub priv) ⟨c.pub priv, priv, now + c.duration, c.address, c.tokenKey⟩ kl.keys
  { keys := keys, stmt := some (stmtOf keys), saved := if wrote then some (keys.map (·.2)) else kl.saved }

/-- `Unmarshal` of a parsed list at time `now` (privkey.go:140-158). -/
def load (now : Int) (l : List KEntry) (kl : KeyList) : KeyList :=
  let keys := expireKeys now (l.foldl (fun m e => setKey (fix32 e.pubkey) e m) [])
  { kl with keys := keys, stmt := some (stmtOf keys) }

/-- What happens to a key list. -/
inductive KOp where
  | add (priv : Bytes) (wrote : Bool)
  | expire
  /-- restart: the newest saved file is read into an empty list -/
  | restart

/-- One step at time `now`. -/
def kstep (c : KConf) (now : Int) (kl : KeyList) : KOp → KeyList
  | .add priv wrote => addKey c now priv wrote kl
  | .expire => { kl with keys := expireKeys now kl.keys }
  | .restart => match kl.saved with
    | some l => load now l { keys := [], stmt := none, saved := kl.saved }
    | none => { keys := [], stmt := none, saved := none }

/-- A history: steps with their times. -/
def krun (c : KConf) (kl : KeyList) (h : List (Int × KOp)) : KeyList := h.foldl (fun kl x => kstep c x.1 kl x.2) kl

/-- Times do not go back, and random keys have 32 bytes. -/
def KHist : Int → List (Int × KOp) → Prop
  | _, [] => True
  | t, (u, op) :: h => t ≤ u ∧ (∀ priv w, op = .add priv w → priv.length = 32) ∧ KHist u h

/-- The time of the last step. -/
def lastTime : Int → List (Int × KOp) → Int
  | t, [] => t
  | _, (u, _) :: h => lastTime u h

/-- Entries belong to their key. -/
def EntryOk (c : KConf) (k : Bytes) (e : KEntry) : Prop :=
  e.pubkey = k ∧ c.pub e.privkey = k ∧ e.privkey.length = 32

/-- The invariant at time `now`. -/
structure KInv (c : KConf) (now : Int) (kl : KeyList) : Prop where
  entries : ∀ x ∈ kl.keys, EntryOk c x.1 x.2
  unique : kl.keys.Pairwise fun x y => x.1 ≠ y.1
  stmt : ∀ al, kl.stmt = some al → ∀ a ∈ al, now ≤ a.expire → ∃ x ∈ kl.keys, x.1 = a.pubkey ∧ x.2.expire = a.expire
  saved : ∀ l, kl.saved = some l → ∀ e ∈ l, EntryOk c e.pubkey e

theorem mem_setKey {k : Bytes} {e : KEntry} {m : List (Bytes × KEntry)} {x : Bytes × KEntry} :
    x ∈ setKey k e m ↔ (x ∈ m ∧ x.1 ≠ k) ∨ x = (k, e) := by
  simp [setKey, List.mem_filter]

theorem setKey_unique {k : Bytes} {e : KEntry} {m : List (Bytes × KEntry)} (h : m.Pairwise fun x y => x.1 ≠ y.1) :
    (setKey k e m).Pairwise fun x y => x.1 ≠ y.1 := by
  unfold setKey
  rw [List.pairwise_append]
  refine ⟨h.filter _, List.pairwise_singleton _ _, ?_⟩
  intro a ha b hb
  rw [List.mem_singleton] at hb
  subst hb
  simpa using (List.mem_filter.mp ha).2

theorem stmtOf_inv {now : Int} {m : List (Bytes × KEntry)} (c : KConf) (hm : ∀ x ∈ m, EntryOk c x.1 x.2) :
    ∀ a ∈ stmtOf m, now ≤ a.expire → ∃ x ∈ m, x.1 = a.pubkey ∧ x.2.expire = a.expire := by
  intro a ha _
  obtain ⟨x, hx, rfl⟩ := List.mem_map.mp ha
  exact ⟨x, hx, (hm x hx).1.symm, rfl⟩

theorem loaded_inv (c : KConf) (hpub : ∀ s, (c.pub s).length = 32) (l : List KEntry) (hl : ∀ e ∈ l, EntryOk c e.pubkey e)
    (m : List (Bytes × KEntry)) (hm : (∀ x ∈ m, EntryOk c x.1 x.2) ∧ m.Pairwise fun x y => x.1 ≠ y.1) :
    (∀ x ∈ l.foldl (fun m e => setKey (fix32 e.pubkey) e m) m, EntryOk c x.1 x.2) ∧
    (l.foldl (fun m e => setKey (fix32 e.pubkey) e m) m).Pairwise fun x y => x.1 ≠ y.1 := by
  induction l generalizing m with
  | nil => exact hm
  | cons e l ih =>
    rw [List.foldl_cons]
    apply ih (fun e' he' => hl e' (List.mem_cons_of_mem _ he'))
    have he := hl e (List.mem_cons_self ..)
    have h32 : fix32 e.pubkey = e.pubkey := fix32_of_length (by rw [← he.2.1]; exact hpub _)
    rw [h32]
    refine ⟨fun x hx => ?_, setKey_unique hm.2⟩
    rcases mem_setKey.mp hx with ⟨h, -⟩ | rfl
    · exact hm.1 x h
    · exact he

theorem kinv_step (c : KConf) (hpub : ∀ s, (c.pub s).length = 32) (t u : Int) (htu : t ≤ u) (kl : KeyList) (hk : KInv c t kl) (op : KOp)
    (hop : ∀ priv w, op = .add priv w → priv.length = 32) : KInv c u (kstep c u kl op) := by
  cases op with
  | add priv w =>
    have hent : ∀ x ∈ setKey (c.pub priv) ⟨c.pub priv, priv, u + c.duration, c.address, c.tokenKey⟩ kl.keys, EntryOk c x.1 x.2 := by
      intro x hx
      rcases mem_setKey.mp hx with ⟨h, -⟩ | rfl
      · exact hk.entries x h
      · exact ⟨rfl, rfl, hop priv w rfl⟩
    refine ⟨hent, setKey_unique hk.unique, ?_, ?_⟩
    · intro al hal
      simp only [kstep, addKey, Option.some.injEq] at hal
      subst hal
      exact stmtOf_inv c hent
    · intro l hl e he
      simp only [kstep, addKey] at hl
      split at hl
      · cases hl
        obtain ⟨x, hx, rfl⟩ := List.mem_map.mp he
        have := hent x hx
        unfold EntryOk at this ⊢
        rw [this.1]
        exact ⟨rfl, this.2⟩
      · exact hk.saved l hl e he
  | expire =>
    refine ⟨fun x hx => hk.entries x (List.mem_filter.mp hx).1, hk.unique.filter _, ?_, hk.saved⟩
    intro al hal a ha hu
    obtain ⟨x, hx, h1, h2⟩ := hk.stmt al hal a ha (by omega)
    exact ⟨x, List.mem_filter.mpr ⟨hx, by simp; omega⟩, h1, h2⟩
  | restart =>
    unfold kstep
    cases hs : kl.saved with
    | none =>
      refine ⟨?_, List.Pairwise.nil, ?_, ?_⟩ <;> intro x hx <;> cases hx
    | some l =>
      obtain ⟨h1, h2⟩ := loaded_inv c hpub l (hk.saved l hs) [] ⟨(fun x hx => by cases hx), List.Pairwise.nil⟩
      have h1' : ∀ x ∈ expireKeys u (l.foldl (fun m e => setKey (fix32 e.pubkey) e m) []), EntryOk c x.1 x.2 :=
        fun x hx => h1 x (List.mem_filter.mp hx).1
      refine ⟨h1', h2.filter _, ?_, ?_⟩
      · intro al hal
        simp only [load, Option.some.injEq] at hal
        subst hal
        exact stmtOf_inv c h1'
      · intro l' hl'
        simp only [load, Option.some.injEq] at hl'
        subst hl'
        exact hk.saved l hs

theorem kinv_run (c : KConf) (hpub : ∀ s, (c.pub s).length = 32) (h : List (Int × KOp)) (t : Int) (kl : KeyList) (hk : KInv c t kl)
    (hh : KHist t h) : KInv c (lastTime t h) (krun c kl h) := by
  induction h generalizing t kl with
  | nil => exact hk
  | cons x h ih =>
    obtain ⟨u, op⟩ := x
    exact ih u _ (kinv_step c hpub t u hh.1 kl hk op hh.2.1) hh.2.2

theorem lookup_of_mem {m : List (Bytes × KEntry)} (hu : m.Pairwise fun x y => x.1 ≠ y.1) {x : Bytes × KEntry} (hx : x ∈ m) :
    m.lookup x.1 = some x.2 := by
  induction m with
  | nil => cases hx
  | cons y m ih =>
    rw [List.pairwise_cons] at hu
    rcases List.mem_cons.mp hx with rfl | hx'
    · simp [List.lookup]
    · have := hu.1 x hx'
      have hne : (x.1 == y.1) = false := by simp; exact fun e => this e.symm
      obtain ⟨a, b⟩ := y
      simp only [List.lookup, hne]
      exact ih hu.2 hx'

/-- C79: in every history of adding keys, expiring and restarting, as long as time does not
go back: for every address in the published statement that has not expired, the mix has the
matching private key. -/
theorem C79_statement_usable (c : KConf) (hpub : ∀ s, (c.pub s).length = 32) (t : Int) (h : List (Int × KOp)) (hh : KHist t h) (now : Int)
    (hnow : lastTime t h ≤ now) (al : List MAddr) (hal : (krun c ⟨[], none, none⟩ h).stmt = some al) (a : MAddr) (ha : a ∈ al)
    (hexp : now ≤ a.expire) :
    ∃ priv, (krun c ⟨[], none, none⟩ h).getPrivateKey now a.pubkey = some priv ∧ c.pub priv = a.pubkey := by
  have hinit : KInv c t ⟨[], none, none⟩ := by
    refine ⟨?_, List.Pairwise.nil, ?_, ?_⟩ <;> intro x hx <;> cases hx
  have hk := kinv_run c hpub h t _ hinit hh
  obtain ⟨x, hx, h1, h2⟩ := hk.stmt al hal a ha (by omega)
  obtain ⟨e1, e2, e3⟩ := hk.entries x hx
  refine ⟨fix32 x.2.privkey, ?_, ?_⟩
  · unfold KeyList.getPrivateKey
    rw [← h1, lookup_of_mem hk.unique hx]
    simp only
    rw [if_neg (by omega)]
  · rw [fix32_of_length e3, e2, h1]

/-- C79: a private key is not given out after its expiry time. -/
theorem C79_expired_key_refused (kl : KeyList) (now : Int) (pk priv : Bytes) (h : kl.getPrivateKey now pk = some priv) :
    ∃ e, kl.keys.lookup pk = some e ∧ now ≤ e.expire ∧ priv = fix32 e.privkey := by
  unfold KeyList.getPrivateKey at h
  split at h
  · rename_i e he
    split at h
    · cases h
    · cases h
      exact ⟨e, he, by omega, rfl⟩
  · cases h

/-- The saved file has every key. -/
theorem saved_inv (c : KConf) (h : List (Int × KOp)) (kl : KeyList)
    (hk : ∀ x ∈ kl.keys, ∃ l, kl.saved = some l ∧ x.2 ∈ l) (hw : ∀ x ∈ h, ∀ priv w, x.2 = .add priv w → w = true) :
    ∀ x ∈ (krun c kl h).keys, ∃ l, (krun c kl h).saved = some l ∧ x.2 ∈ l := by
  induction h generalizing kl with
  | nil => exact hk
  | cons y h ih =>
    obtain ⟨u, op⟩ := y
    apply ih
    · cases op with
      | add priv w =>
        have := hw _ (List.mem_cons_self ..) priv w rfl
        subst this
        intro x hx
        exact ⟨_, rfl, List.mem_map.mpr ⟨x, hx, rfl⟩⟩
      | expire => exact fun x hx => hk x (List.mem_filter.mp hx).1
      | restart =>
        intro x hx
        change x ∈ (kstep c u kl .restart).keys at hx
        change ∃ l, (kstep c u kl .restart).saved = some l ∧ x.2 ∈ l
        unfold kstep at hx ⊢
        cases hs : kl.saved with
        | none => rw [hs] at hx; cases hx
        | some l =>
          rw [hs] at hx
          refine ⟨l, rfl, ?_⟩
          have hx := (List.mem_filter.mp hx).1
          suffices H : ∀ (l' : List KEntry) (m : List (Bytes × KEntry)), (∀ z ∈ m, z.2 ∈ l) → (∀ e ∈ l', e ∈ l) →
              ∀ z ∈ l'.foldl (fun m e => setKey (fix32 e.pubkey) e m) m, z.2 ∈ l from
            H l [] (fun z hz => by cases hz) (fun e he => he) x hx
          intro l'
          induction l' with
          | nil => intro m hm _ z hz; exact hm z hz
          | cons e l' ih' =>
            intro m hm hl' z hz
            rw [List.foldl_cons] at hz
            refine ih' _ ?_ (fun e he => hl' e (List.mem_cons_of_mem _ he)) z hz
            intro z hz
            rcases mem_setKey.mp hz with ⟨h, -⟩ | rfl
            · exact hm z h
            · exact hl' e (List.mem_cons_self ..)
    · exact fun x hx => hw x (List.mem_cons_of_mem _ hx)

/-- C79: if all writes succeed, every key the mix uses is in the newest saved file, so a
crash between operations loses none. -/
theorem C79_keys_saved (c : KConf) (h : List (Int × KOp)) (hw : ∀ x ∈ h, ∀ priv w, x.2 = .add priv w → w = true) :
    ∀ x ∈ (krun c ⟨[], none, none⟩ h).keys, ∃ l, (krun c ⟨[], none, none⟩ h).saved = some l ∧ x.2 ∈ l :=
  saved_inv c h _ (fun x hx => by cases hx) hw

/-- A key for `pk` that lasts until `E` is in use. -/
def Has (pk : Bytes) (E : Int) (kl : KeyList) : Prop := ∃ x ∈ kl.keys, x.1 = pk ∧ E ≤ x.2.expire

/-- ... and is in the newest saved file, whose keys are distinct. -/
def Saved (pk : Bytes) (E : Int) (kl : KeyList) : Prop :=
  ∃ l, kl.saved = some l ∧ (∃ e ∈ l, e.pubkey = pk ∧ E ≤ e.expire) ∧ l.Pairwise fun x y => x.pubkey ≠ y.pubkey

theorem foldl_has (pk : Bytes) (E : Int) (l : List KEntry) (hl : ∀ e ∈ l, e.pubkey.length = 32)
    (hu : l.Pairwise fun x y => x.pubkey ≠ y.pubkey) (m : List (Bytes × KEntry))
    (h : (∃ x ∈ m, x.1 = pk ∧ E ≤ x.2.expire ∧ ∀ e ∈ l, e.pubkey ≠ pk) ∨ ∃ e ∈ l, e.pubkey = pk ∧ E ≤ e.expire) :
    ∃ x ∈ l.foldl (fun m e => setKey (fix32 e.pubkey) e m) m, x.1 = pk ∧ E ≤ x.2.expire := by
  induction l generalizing m with
  | nil =>
    rcases h with ⟨x, hx, h1, h2, -⟩ | ⟨e, he, -⟩
    · exact ⟨x, hx, h1, h2⟩
    · cases he
  | cons e l ih =>
    rw [List.foldl_cons]
    rw [List.pairwise_cons] at hu
    apply ih (fun e he => hl e (List.mem_cons_of_mem _ he)) hu.2
    have h32 : fix32 e.pubkey = e.pubkey := fix32_of_length (hl e (List.mem_cons_self ..))
    rcases h with ⟨x, hx, h1, h2, h3⟩ | ⟨e', he', h1, h2⟩
    · left
      refine ⟨x, mem_setKey.mpr (Or.inl ⟨hx, ?_⟩), h1, h2, fun e he => h3 e (List.mem_cons_of_mem _ he)⟩
      rw [h32, h1]
      exact fun hc => h3 e (List.mem_cons_self ..) hc.symm
    · rcases List.mem_cons.mp he' with rfl | he'
      · left
        refine ⟨(fix32 e'.pubkey, e'), mem_setKey.mpr (Or.inr rfl), by rw [h32, h1], h2, ?_⟩
        intro e he hc
        exact hu.1 e he (by rw [h1, hc])
      · exact Or.inr ⟨e', he', h1, h2⟩

theorem has_step (c : KConf) (hpub : ∀ s, (c.pub s).length = 32) (pk : Bytes) (t0 t u : Int) (ht : t0 ≤ t) (htu : t ≤ u)
    (hu : u ≤ t0 + c.duration) (kl : KeyList) (hk : KInv c t kl) (op : KOp) (hw : ∀ priv w, op = .add priv w → w = true)
    (h : Has pk (t0 + c.duration) kl ∧ Saved pk (t0 + c.duration) kl) :
    Has pk (t0 + c.duration) (kstep c u kl op) ∧ Saved pk (t0 + c.duration) (kstep c u kl op) := by
  obtain ⟨⟨x, hx, h1, h2⟩, l, hl, ⟨e, he, h3, h4⟩, h5⟩ := h
  cases op with
  | add priv w =>
    have hHas : ∃ x ∈ setKey (c.pub priv) ⟨c.pub priv, priv, u + c.duration, c.address, c.tokenKey⟩ kl.keys,
        x.1 = pk ∧ x.2.pubkey = pk ∧ t0 + c.duration ≤ x.2.expire := by
      by_cases hpk : c.pub priv = pk
      · exact ⟨_, mem_setKey.mpr (Or.inr rfl), hpk, hpk, by simp only; omega⟩
      · exact ⟨x, mem_setKey.mpr (Or.inl ⟨hx, by rw [h1]; exact fun hc => hpk hc.symm⟩), h1, by rw [(hk.entries x hx).1, h1], h2⟩
    obtain ⟨y, hy, y1, y2, y3⟩ := hHas
    have := hw priv w rfl
    subst this
    refine ⟨⟨y, hy, y1, y3⟩, _, rfl, ⟨y.2, List.mem_map.mpr ⟨y, hy, rfl⟩, y2, y3⟩, ?_⟩
    rw [List.pairwise_map]
    refine (setKey_unique hk.unique).imp_of_mem ?_
    intro a b ha hb hab
    have hent : ∀ z ∈ setKey (c.pub priv) ⟨c.pub priv, priv, u + c.duration, c.address, c.tokenKey⟩ kl.keys, z.2.pubkey = z.1 := by
      intro z hz
      rcases mem_setKey.mp hz with ⟨h, -⟩ | rfl
      · exact (hk.entries z h).1
      · rfl
    rw [hent a ha, hent b hb]
    exact hab
  | expire => exact ⟨⟨x, List.mem_filter.mpr ⟨hx, by simp; omega⟩, h1, h2⟩, l, hl, ⟨e, he, h3, h4⟩, h5⟩
  | restart =>
    unfold kstep
    rw [hl]
    refine ⟨?_, l, rfl, ⟨e, he, h3, h4⟩, h5⟩
    obtain ⟨y, hy, y1, y2⟩ := foldl_has pk (t0 + c.duration) l (fun e he => by rw [← (hk.saved l hl e he).2.1]; exact hpub _) h5 []
      (Or.inr ⟨e, he, h3, h4⟩)
    exact ⟨y, List.mem_filter.mpr ⟨hy, by simp; omega⟩, y1, y2⟩

theorem has_run (c : KConf) (hpub : ∀ s, (c.pub s).length = 32) (pk : Bytes) (t0 : Int) (h : List (Int × KOp)) (t : Int) (ht : t0 ≤ t)
    (hu : lastTime t h ≤ t0 + c.duration) (kl : KeyList) (hk : KInv c t kl) (hh : KHist t h)
    (hw : ∀ x ∈ h, ∀ priv w, x.2 = .add priv w → w = true)
    (H : Has pk (t0 + c.duration) kl ∧ Saved pk (t0 + c.duration) kl) : Has pk (t0 + c.duration) (krun c kl h) := by
  induction h generalizing t kl with
  | nil => exact H.1
  | cons x h ih =>
    obtain ⟨u, op⟩ := x
    have hlast : ∀ (h : List (Int × KOp)) (v : Int), KHist v h → v ≤ lastTime v h := by
      intro h
      induction h with
      | nil => intro v _; exact Int.le_refl _
      | cons y h ih => intro v hv; exact Int.le_trans hv.1 (ih _ hv.2.2)
    have hle := hlast h u hh.2.2
    have hu' : lastTime u h ≤ t0 + c.duration := hu
    exact ih u (by have := hh.1; omega) hu' _ (kinv_step c hpub t u hh.1 kl hk op hh.2.1) hh.2.2
      (fun x hx => hw x (List.mem_cons_of_mem _ hx))
      (has_step c hpub pk t0 t u ht hh.1 (by omega) kl hk op (hw _ (List.mem_cons_self ..)) H)

theorem khist_append (h1 h2 : List (Int × KOp)) (t : Int) : KHist t (h1 ++ h2) ↔ KHist t h1 ∧ KHist (lastTime t h1) h2 := by
  induction h1 generalizing t with
  | nil => simp [KHist, lastTime]
  | cons x h1 ih =>
    obtain ⟨u, op⟩ := x
    simp only [List.cons_append, KHist, lastTime, ih]
    grind

/-- C79: a key stays usable for the configured duration: in every history in which it is
added at time `t0` and files are written, a matching private key is given out up to
`t0 + duration`, whatever is added, expired or restarted before and after. -/
theorem C79_key_kept (c : KConf) (hpub : ∀ s, (c.pub s).length = 32) (t t0 : Int) (h1 h2 : List (Int × KOp)) (priv : Bytes)
    (hh : KHist t (h1 ++ (t0, .add priv true) :: h2)) (hw : ∀ x ∈ h2, ∀ priv w, x.2 = .add priv w → w = true) (now : Int)
    (hlast : lastTime t0 h2 ≤ now) (hnow : now ≤ t0 + c.duration) :
    ∃ priv', (krun c ⟨[], none, none⟩ (h1 ++ (t0, .add priv true) :: h2)).getPrivateKey now (c.pub priv) = some priv' ∧
      c.pub priv' = c.pub priv := by
  have hinit : KInv c t ⟨[], none, none⟩ := by
    refine ⟨?_, List.Pairwise.nil, ?_, ?_⟩ <;> intro x hx <;> cases hx
  rw [khist_append] at hh
  obtain ⟨hh1, hle, hlen, hh2⟩ := hh
  have k1 := kinv_run c hpub h1 t _ hinit hh1
  have k2 := kinv_step c hpub _ t0 hle _ k1 (.add priv true) hlen
  have k3 := kinv_run c hpub h2 t0 _ k2 hh2
  have hrun : krun c ⟨[], none, none⟩ (h1 ++ (t0, .add priv true) :: h2) =
      krun c (kstep c t0 (krun c ⟨[], none, none⟩ h1) (.add priv true)) h2 := by
    simp [krun, List.foldl_append]
  rw [hrun]
  have H : Has (c.pub priv) (t0 + c.duration) (kstep c t0 (krun c ⟨[], none, none⟩ h1) (.add priv true)) ∧
      Saved (c.pub priv) (t0 + c.duration) (kstep c t0 (krun c ⟨[], none, none⟩ h1) (.add priv true)) := by
    have hm : (c.pub priv, KEntry.mk (c.pub priv) priv (t0 + c.duration) c.address c.tokenKey) ∈
        (kstep c t0 (krun c ⟨[], none, none⟩ h1) (.add priv true)).keys := mem_setKey.mpr (Or.inr rfl)
    refine ⟨⟨_, hm, rfl, Int.le_refl _⟩, _, rfl, ⟨_, List.mem_map.mpr ⟨_, hm, rfl⟩, rfl, Int.le_refl _⟩, ?_⟩
    rw [List.pairwise_map]
    refine k2.unique.imp_of_mem ?_
    intro a b ha hb hab
    rw [(k2.entries a ha).1, (k2.entries b hb).1]
    exact hab
  obtain ⟨x, hx, x1, x2⟩ := has_run c hpub (c.pub priv) t0 h2 t0 (Int.le_refl _) (by omega) _ k2 hh2 hw H
  obtain ⟨e1, e2, e3⟩ := k3.entries x hx
  refine ⟨fix32 x.2.privkey, ?_, by rw [fix32_of_length e3, e2, x1]⟩
  unfold KeyList.getPrivateKey
  rw [← x1, lookup_of_mem k3.unique hx]
  simp only
  rw [if_neg (by omega)]

/-- C79 is violated when a file cannot be written: the error is ignored, the key is
published, and after a restart the mix cannot open messages to it. -/
theorem C79_lost_key (c : KConf) (now : Int) (priv : Bytes) :
    let kl := krun c ⟨[], none, none⟩ [(now, .add priv false)]
    (∃ al, kl.stmt = some al ∧ ∃ a ∈ al, a.pubkey = c.pub priv) ∧
    (krun c kl [(now, .restart)]).getPrivateKey now (c.pub priv) = none := by
  refine ⟨⟨_, rfl, _, List.mem_cons_self .., rfl⟩, rfl⟩

/-- Non-vacuity: two keys, an expiry run and a restart; the second key is still usable. -/
def toyConf : KConf := ⟨fix32, [109], 100, []⟩
def toyHist : List (Int × KOp) :=
  [(10, .add (List.replicate 32 1) true), (60, .add (List.replicate 32 2) true), (120, .expire), (130, .restart)]
example : KHist 0 toyHist := by
  refine ⟨by omega, ?_, by omega, ?_, by omega, ?_, by omega, ?_, trivial⟩ <;> intro p w h <;> cases h <;> simp
example : (krun toyConf ⟨[], none, none⟩ toyHist).stmt = some [⟨List.replicate 32 2, 160, [109], []⟩] ∧
    (krun toyConf ⟨[], none, none⟩ toyHist).getPrivateKey 150 (List.replicate 32 2) = some (List.replicate 32 2) := by
  decide +kernel

end Verif.Mix

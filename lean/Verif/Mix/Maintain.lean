/-
The maintainer of a mix's keys: new keys in time, old keys dropped.
-/
import Verif.Mix.Addr

set_option autoImplicit false

namespace Verif.Mix

/-! ## C133 a maintained mix -/

/-- What a tick of the ten-second ticker finds: the time, the random key that would be drawn, and whether its file
could be written. -/
structure Tick where
  time : Int
  priv : Bytes
  wrote : Bool

/-- The key list and `lastAdd`. -/
structure Maintained where
  list : KeyList
  lastAdd : Int

/-- One round of `Maintain` (privkey.go:103-117). The clock is read once; the differences of times do not overflow.
Everything is done under the lock of the list. -/
def maintain (c : KConf) (freq : Int) (m : Maintained) (x : Tick) : Maintained :=
  if m.lastAdd < x.time - freq then ⟨addKey c x.time x.priv x.wrote m.list, x.time⟩
  else ⟨{ m.list with keys := expireKeys x.time m.list.keys }, m.lastAdd⟩

/-- `Maintain` (privkey.go:99-119) over a series of ticks; `lastAdd` starts at zero. -/
def maintained (c : KConf) (freq : Int) (kl : KeyList) (xs : List Tick) : Maintained := xs.foldl (maintain c freq) ⟨kl, 0⟩

/-- `GetKeyEntry` (privkey.go:86-96). -/
def KeyList.getKeyEntry (kl : KeyList) (now : Int) (pk : Bytes) : Option KEntry :=
  match kl.keys.lookup pk with
  | some e => if e.expire < now then none else some e
  | none => none

/-- `GetBoundaryTime` (privkey.go:161-173). -/
def boundary (m : List (Bytes × KEntry)) : Int × Int :=
  m.foldl (fun b x => (if x.2.expire ≤ b.1 ∨ b.1 = 0 then x.2.expire else b.1, if x.2.expire ≥ b.2 ∨ b.2 = 0 then x.2.expire else b.2)) (0, 0)

/-! ### the specification -/

/-- Ticks after time `t`, at most `d` apart; random keys have 32 bytes. -/
def Ticks (d : Int) : Int → List Tick → Prop
  | _, [] => True
  | t, x :: xs => t ≤ x.time ∧ x.time ≤ t + d ∧ x.priv.length = 32 ∧ Ticks d x.time xs

/-- The time of the last tick. -/
def lastTick : Int → List Tick → Int
  | t, [] => t
  | _, x :: xs => lastTick x.time xs

/-! ### proofs -/

theorem maintain_kinv (c : KConf) (hpub : ∀ s, (c.pub s).length = 32) (freq t : Int) (m : Maintained) (x : Tick) (h : t ≤ x.time)
    (hp : x.priv.length = 32) (hk : KInv c t m.list) : KInv c x.time (maintain c freq m x).list := by
  unfold maintain
  split
  · exact kinv_step c hpub t x.time h m.list hk (.add x.priv x.wrote) fun p w e => by cases e; exact hp
  · exact kinv_step c hpub t x.time h m.list hk .expire nofun

/-- After a tick: a key was added not long ago and is published. -/
structure Fresh (c : KConf) (freq τ : Int) (m : Maintained) : Prop where
  inv : KInv c τ m.list
  past : m.lastAdd ≤ τ
  near : τ ≤ m.lastAdd + freq
  pub : ∃ al a, m.list.stmt = some al ∧ a ∈ al ∧ a.expire = m.lastAdd + c.duration ∧ a.address = c.address ∧ a.tokenKey = c.tokenKey

theorem fresh_add (c : KConf) (hpub : ∀ s, (c.pub s).length = 32) (freq t : Int) (hf : 0 ≤ freq) (m : Maintained) (x : Tick) (h : t ≤ x.time)
    (hp : x.priv.length = 32) (hk : KInv c t m.list) (ha : m.lastAdd < x.time - freq) : Fresh c freq x.time (maintain c freq m x) := by
  refine ⟨maintain_kinv c hpub freq t m x h hp hk, ?_, ?_, ?_⟩
  all_goals unfold maintain; rw [if_pos ha]
  · exact Int.le_refl _
  · show x.time ≤ x.time + freq
    omega
  · refine ⟨_, ⟨c.pub x.priv, x.time + c.duration, c.address, c.tokenKey⟩, rfl, ?_, rfl, rfl, rfl⟩
    exact List.mem_map.mpr ⟨_, mem_setKey.mpr (.inr rfl), rfl⟩

theorem fresh_step (c : KConf) (hpub : ∀ s, (c.pub s).length = 32) (freq t : Int) (hf : 0 ≤ freq) (m : Maintained) (x : Tick) (h : t ≤ x.time)
    (hp : x.priv.length = 32) (hm : Fresh c freq t m) : Fresh c freq x.time (maintain c freq m x) := by
  by_cases ha : m.lastAdd < x.time - freq
  · exact fresh_add c hpub freq t hf m x h hp hm.inv ha
  · refine ⟨maintain_kinv c hpub freq t m x h hp hm.inv, ?_, ?_, ?_⟩
    all_goals unfold maintain; rw [if_neg ha]
    · have := hm.past
      show m.lastAdd ≤ x.time
      omega
    · show x.time ≤ m.lastAdd + freq
      omega
    · exact hm.pub

theorem fresh_run (c : KConf) (hpub : ∀ s, (c.pub s).length = 32) (freq d : Int) (hf : 0 ≤ freq) (xs : List Tick) (t : Int) (m : Maintained)
    (hx : Ticks d t xs) (hm : Fresh c freq t m) : Fresh c freq (lastTick t xs) (xs.foldl (maintain c freq) m) := by
  induction xs generalizing t m with
  | nil => exact hm
  | cons x xs ih => exact ih x.time _ hx.2.2.2 (fresh_step c hpub freq t hf m x hx.1 hx.2.2.1 hm)

theorem empty_inv (c : KConf) (t : Int) : KInv c t ⟨[], none, none⟩ := by
  refine ⟨?_, List.Pairwise.nil, ?_, ?_⟩ <;> intro x hx <;> cases hx

/-- **C133** A mix that is maintained can always be reached. Let ticks come at most `d` seconds apart, and let keys live
for at least the interval between new keys and `d` more. Then from the first tick on, at every moment, whatever happened
before the maintainer was started, the published statement has an address of the mix that has not expired, and the mix
has its private key. -/
theorem C133_reachable (c : KConf) (hpub : ∀ s, (c.pub s).length = 32) (freq d : Int) (hf : 0 ≤ freq) (hd : freq + d ≤ c.duration)
    (t : Int) (h : List (Int × KOp)) (hh : KHist t h) (x : Tick) (xs : List Tick) (h0 : lastTime t h ≤ x.time) (hx : x.priv.length = 32)
    (hstart : freq < x.time) (hxs : Ticks d x.time xs) (now : Int) (hn : lastTick x.time xs ≤ now) (hn' : now ≤ lastTick x.time xs + d) :
    ∃ al a, (maintained c freq (krun c ⟨[], none, none⟩ h) (x :: xs)).list.stmt = some al ∧ a ∈ al ∧ now ≤ a.expire ∧
      a.address = c.address ∧ a.tokenKey = c.tokenKey ∧
      ∃ priv, (maintained c freq (krun c ⟨[], none, none⟩ h) (x :: xs)).list.getPrivateKey now a.pubkey = some priv ∧ c.pub priv = a.pubkey := by
  have hk := kinv_run c hpub h t _ (empty_inv c t) hh
  have h1 := fresh_add c hpub freq _ hf ⟨krun c ⟨[], none, none⟩ h, 0⟩ x h0 hx hk (show (0 : Int) < x.time - freq by omega)
  have h2 := fresh_run c hpub freq d hf xs x.time _ hxs h1
  change Fresh c freq (lastTick x.time xs) (maintained c freq (krun c ⟨[], none, none⟩ h) (x :: xs)) at h2
  generalize maintained c freq (krun c ⟨[], none, none⟩ h) (x :: xs) = m at h2
  obtain ⟨al, a, p1, p2, p3, p4, p5⟩ := h2.pub
  have hexp : now ≤ a.expire := by
    have := h2.near
    omega
  refine ⟨al, a, p1, p2, hexp, p4, p5, ?_⟩
  obtain ⟨y, hy, e1, e2⟩ := h2.inv.stmt al p1 a p2 (by omega)
  obtain ⟨i1, i2, i3⟩ := h2.inv.entries y hy
  refine ⟨fix32 y.2.privkey, ?_, by rw [fix32_of_length i3, i2, e1]⟩
  unfold KeyList.getPrivateKey
  rw [← e1, lookup_of_mem h2.inv.unique hy]
  simp only
  rw [if_neg (by omega)]

/-- The entry that is given out is the one of the private key. -/
theorem C133_entry (kl : KeyList) (now : Int) (pk : Bytes) :
    kl.getPrivateKey now pk = (kl.getKeyEntry now pk).map fun e => fix32 e.privkey := by
  unfold KeyList.getPrivateKey KeyList.getKeyEntry
  cases kl.keys.lookup pk with
  | none => rfl
  | some e =>
    simp only
    split <;> rfl

/-! ### the number of keys -/

/-- Keys are kept in the order in which they expire, more than `freq` apart, and none is older than the tick before the
last. -/
structure Spaced (c : KConf) (freq d τ : Int) (m : Maintained) : Prop where
  past : m.lastAdd ≤ τ
  gaps : m.list.keys.Pairwise fun x y => x.2.expire + freq < y.2.expire
  top : ∀ x ∈ m.list.keys, x.2.expire ≤ m.lastAdd + c.duration
  low : ∀ x ∈ m.list.keys, τ - d ≤ x.2.expire
  low' : m.lastAdd ≠ τ → ∀ x ∈ m.list.keys, τ ≤ x.2.expire
  stmt : ∀ al, m.list.stmt = some al → (al.length : Int) * (freq + 1) ≤ c.duration + d + freq + 1

theorem spaced_count {freq lo hi : Int} (l : List (Bytes × KEntry)) (hg : l.Pairwise fun x y => x.2.expire + freq < y.2.expire)
    (ht : ∀ x ∈ l, x.2.expire ≤ hi) (hl : ∀ x ∈ l, lo ≤ x.2.expire) (hlh : lo ≤ hi + freq + 1) : (l.length : Int) * (freq + 1) ≤ hi - lo + freq + 1 := by
  induction l generalizing lo with
  | nil => simp; omega
  | cons x l ih =>
    obtain ⟨h1, h2⟩ := List.pairwise_cons.mp hg
    have a1 := ht x (.head _)
    have a2 := hl x (.head _)
    have := ih (lo := x.2.expire + freq + 1) h2 (fun y hy => ht y (.tail _ hy)) (fun y hy => by have := h1 y hy; omega) (by omega)
    have e : ((x :: l).length : Int) * (freq + 1) = (l.length : Int) * (freq + 1) + (freq + 1) := by
      rw [List.length_cons, Int.natCast_succ, Int.add_mul]; omega
    omega

theorem spaced_step (c : KConf) (freq d : Int) (hf : 0 ≤ freq) (hdur : 0 ≤ c.duration) (hdf : d ≤ freq) (t : Int) (m : Maintained) (x : Tick)
    (h : t ≤ x.time) (h' : x.time ≤ t + d) (hm : Spaced c freq d t m) : Spaced c freq d x.time (maintain c freq m x) := by
  unfold maintain
  split
  · rename_i ha
    have hne : m.lastAdd ≠ t := by omega
    have hlow := hm.low' hne
    have hmem : ∀ y ∈ (addKey c x.time x.priv x.wrote m.list).keys, (y ∈ m.list.keys ∨ y.2.expire = x.time + c.duration) := by
      intro y hy
      rcases mem_setKey.mp hy with ⟨hy, _⟩ | rfl
      · exact .inl hy
      · exact .inr rfl
    have hg : (addKey c x.time x.priv x.wrote m.list).keys.Pairwise fun x y => x.2.expire + freq < y.2.expire := by
      unfold addKey setKey
      rw [List.pairwise_append]
      refine ⟨hm.gaps.filter _, List.pairwise_singleton _ _, ?_⟩
      intro a ha' b hb
      rw [List.mem_singleton] at hb
      subst hb
      have := hm.top a (List.mem_filter.mp ha').1
      simp only
      omega
    have ht : ∀ y ∈ (addKey c x.time x.priv x.wrote m.list).keys, y.2.expire ≤ x.time + c.duration := by
      intro y hy
      rcases hmem y hy with hy | e
      · have := hm.top y hy; have := hm.past; omega
      · omega
    have hl : ∀ y ∈ (addKey c x.time x.priv x.wrote m.list).keys, x.time - d ≤ y.2.expire := by
      intro y hy
      rcases hmem y hy with hy | e
      · have := hlow y hy; omega
      · omega
    refine ⟨Int.le_refl _, hg, ht, hl, fun hne => absurd rfl hne, ?_⟩
    intro al hal
    have hal : some (stmtOf (addKey c x.time x.priv x.wrote m.list).keys) = some al := hal
    injection hal with hal
    have := spaced_count _ hg ht hl (by omega)
    rw [← hal]
    unfold stmtOf
    rw [List.length_map]
    omega
  · rename_i ha
    have hsub : ∀ y ∈ expireKeys x.time m.list.keys, y ∈ m.list.keys ∧ x.time ≤ y.2.expire := by
      intro y hy
      obtain ⟨h1, h2⟩ := List.mem_filter.mp hy
      simp only [decide_eq_true_eq] at h2
      exact ⟨h1, by omega⟩
    refine ⟨?_, hm.gaps.filter _, fun y hy => hm.top y (hsub y hy).1, fun y hy => ?_, fun _ y hy => (hsub y hy).2, hm.stmt⟩
    · have := hm.past
      show m.lastAdd ≤ x.time
      omega
    · have := (hsub y hy).2
      show x.time - d ≤ _
      omega

theorem spaced_run (c : KConf) (freq d : Int) (hf : 0 ≤ freq) (hdur : 0 ≤ c.duration) (hdf : d ≤ freq) (xs : List Tick) (t : Int) (m : Maintained)
    (hx : Ticks d t xs) (hm : Spaced c freq d t m) : Spaced c freq d (lastTick t xs) (xs.foldl (maintain c freq) m) := by
  induction xs generalizing t m with
  | nil => exact hm
  | cons x xs ih => exact ih x.time _ hx.2.2.2 (spaced_step c freq d hf hdur hdf t m x hx.1 hx.2.1 hm)

/-- **C133** A maintained mix does not pile up keys: if the interval between new keys is not shorter than the one
between ticks, a mix started without keys has, and publishes, at most one key more than fit into the life of a key and `d`
seconds. -/
theorem C133_bounded (c : KConf) (freq d : Int) (hf : 0 ≤ freq) (hdur : 0 ≤ c.duration) (hd : 0 ≤ d) (hdf : d ≤ freq) (t : Int) (ht : 0 < t) (xs : List Tick)
    (hx : Ticks d t xs) :
    ((maintained c freq ⟨[], none, none⟩ xs).list.keys.length : Int) * (freq + 1) ≤ c.duration + d + freq + 1 ∧
    ∀ al, (maintained c freq ⟨[], none, none⟩ xs).list.stmt = some al → (al.length : Int) * (freq + 1) ≤ c.duration + d + freq + 1 := by
  have h0 : Spaced c freq d t ⟨⟨[], none, none⟩, 0⟩ := ⟨by simp only; omega, List.Pairwise.nil, nofun, nofun, fun _ => nofun, nofun⟩
  have h := spaced_run c freq d hf hdur hdf xs t _ hx h0
  change Spaced c freq d (lastTick t xs) (maintained c freq ⟨[], none, none⟩ xs) at h
  refine ⟨?_, h.stmt⟩
  have hp := h.past
  have := spaced_count _ h.gaps h.top h.low
  by_cases hk : (maintained c freq ⟨[], none, none⟩ xs).list.keys = []
  · rw [hk]
    simp
    omega
  · obtain ⟨y, hy⟩ := List.exists_mem_of_ne_nil _ hk
    have a1 := h.top y hy
    have a2 := h.low y hy
    have := this (by omega)
    omega

/-! ### the shortest and the longest lived key -/

theorem boundary_go (m : List (Bytes × KEntry)) (b : Int × Int) (hb : 0 < b.1 ∧ 0 < b.2) (hm : ∀ x ∈ m, 0 < x.2.expire) :
    let r := m.foldl (fun b x => (if x.2.expire ≤ b.1 ∨ b.1 = 0 then x.2.expire else b.1, if x.2.expire ≥ b.2 ∨ b.2 = 0 then x.2.expire else b.2)) b
    (r.1 ≤ b.1 ∧ (∀ x ∈ m, r.1 ≤ x.2.expire) ∧ (r.1 = b.1 ∨ ∃ x ∈ m, x.2.expire = r.1)) ∧
    (b.2 ≤ r.2 ∧ (∀ x ∈ m, x.2.expire ≤ r.2) ∧ (r.2 = b.2 ∨ ∃ x ∈ m, x.2.expire = r.2)) := by
  induction m generalizing b with
  | nil => exact ⟨⟨Int.le_refl _, nofun, .inl rfl⟩, Int.le_refl _, nofun, .inl rfl⟩
  | cons x m ih =>
    have hx := hm x (.head _)
    have hv : ∃ v, (if x.2.expire ≤ b.1 ∨ b.1 = 0 then x.2.expire else b.1) = v ∧ ((v = x.2.expire ∧ v ≤ b.1) ∨ (v = b.1 ∧ v ≤ x.2.expire)) := by
      refine ⟨_, rfl, ?_⟩
      split <;> omega
    have hw : ∃ v, (if x.2.expire ≥ b.2 ∨ b.2 = 0 then x.2.expire else b.2) = v ∧ ((v = x.2.expire ∧ b.2 ≤ v) ∨ (v = b.2 ∧ x.2.expire ≤ v)) := by
      refine ⟨_, rfl, ?_⟩
      split <;> omega
    obtain ⟨v, ev, hv⟩ := hv
    obtain ⟨w, ew, hw⟩ := hw
    have h := ih (v, w) (by constructor <;> simp only <;> omega) fun y hy => hm y (.tail _ hy)
    simp only [List.foldl_cons, ev, ew] at h ⊢
    obtain ⟨⟨p1, p2, p3⟩, q1, q2, q3⟩ := h
    refine ⟨⟨by clear p3 q3; omega, ?_, ?_⟩, by clear p3 q3; omega, ?_, ?_⟩
    · intro y hy
      rcases List.mem_cons.mp hy with rfl | hy
      · clear p3 q3; omega
      · exact p2 y hy
    · rcases p3 with p3 | ⟨y, hy, e⟩
      · rcases hv with hv | hv
        · exact .inr ⟨x, .head _, by clear q3; omega⟩
        · exact .inl (by clear q3; omega)
      · exact .inr ⟨y, .tail _ hy, e⟩
    · intro y hy
      rcases List.mem_cons.mp hy with rfl | hy
      · clear p3 q3; omega
      · exact q2 y hy
    · rcases q3 with q3 | ⟨y, hy, e⟩
      · rcases hw with hw | hw
        · exact .inr ⟨x, .head _, by clear p3; omega⟩
        · exact .inl (by clear p3; omega)
      · exact .inr ⟨y, .tail _ hy, e⟩

/-- **C133** The boundary times are the expiry times of a key that expires first and of one that expires last, in whatever
order the map is read; both are zero for an empty list. -/
theorem C133_boundary (m : List (Bytes × KEntry)) (hm : ∀ x ∈ m, 0 < x.2.expire) :
    (m = [] → boundary m = (0, 0)) ∧
    (m ≠ [] → (∃ x ∈ m, x.2.expire = (boundary m).1) ∧ (∃ x ∈ m, x.2.expire = (boundary m).2) ∧
      ∀ x ∈ m, (boundary m).1 ≤ x.2.expire ∧ x.2.expire ≤ (boundary m).2) := by
  constructor
  · rintro rfl; rfl
  · intro hne
    cases m with
    | nil => exact absurd rfl hne
    | cons x m =>
      have hx := hm x (.head _)
      have h := boundary_go m (x.2.expire, x.2.expire) ⟨hx, hx⟩ fun y hy => hm y (.tail _ hy)
      have e : boundary (x :: m) = m.foldl (fun b x => (if x.2.expire ≤ b.1 ∨ b.1 = 0 then x.2.expire else b.1, if x.2.expire ≥ b.2 ∨ b.2 = 0 then x.2.expire else b.2)) (x.2.expire, x.2.expire) := by
        unfold boundary
        rw [List.foldl_cons]
        congr 1
        simp
      rw [← e] at h
      obtain ⟨⟨p1, p2, p3⟩, q1, q2, q3⟩ := h
      refine ⟨?_, ?_, ?_⟩
      · rcases p3 with p3 | ⟨y, hy, e⟩
        · exact ⟨x, .head _, p3.symm⟩
        · exact ⟨y, .tail _ hy, e⟩
      · rcases q3 with p3 | ⟨y, hy, e⟩
        · exact ⟨x, .head _, p3.symm⟩
        · exact ⟨y, .tail _ hy, e⟩
      · intro y hy
        rcases List.mem_cons.mp hy with rfl | hy
        · exact ⟨p1, q1⟩
        · exact ⟨p2 y hy, q2 y hy⟩

/-! ### where it fails -/

/-- Ticks more than `freq` apart, from time `t` on. -/
def Far (freq : Int) : Int → List Tick → Prop
  | _, [] => True
  | t, x :: xs => t < x.time - freq ∧ Far freq x.time xs

/-- C133, violated: expired keys are dropped only by ticks that add none. If the interval between new keys is shorter
than the one between ticks, every tick adds a key and no key is ever dropped, nor does an expired address leave the statement. -/
theorem C133_grows_violated (c : KConf) (freq : Int) (xs : List Tick) (hx : Far freq 0 xs) (hu : xs.Pairwise fun x y => c.pub x.priv ≠ c.pub y.priv) :
    (maintained c freq ⟨[], none, none⟩ xs).list.keys.map (fun x => (x.1, x.2.expire)) = xs.map fun x => (c.pub x.priv, x.time + c.duration) := by
  suffices ∀ (xs : List Tick) (m : Maintained), Far freq m.lastAdd xs → xs.Pairwise (fun x y => c.pub x.priv ≠ c.pub y.priv) →
      (∀ x ∈ xs, ∀ y ∈ m.list.keys, y.1 ≠ c.pub x.priv) →
      (xs.foldl (maintain c freq) m).list.keys.map (fun x => (x.1, x.2.expire)) =
        m.list.keys.map (fun x => (x.1, x.2.expire)) ++ xs.map fun x => (c.pub x.priv, x.time + c.duration) from
    this xs _ hx hu nofun
  intro xs
  induction xs with
  | nil => intro m _ _ _; simp
  | cons x xs ih =>
    intro m hm hu hk
    obtain ⟨u1, u2⟩ := List.pairwise_cons.mp hu
    have hkeys : (maintain c freq m x).list.keys = m.list.keys ++ [(c.pub x.priv, ⟨c.pub x.priv, x.priv, x.time + c.duration, c.address, c.tokenKey⟩)] := by
      unfold maintain
      rw [if_pos hm.1]
      simp only [addKey, setKey]
      rw [List.filter_eq_self.mpr]
      intro y hy
      simpa using hk x (.head _) y hy
    have hlast : (maintain c freq m x).lastAdd = x.time := by
      unfold maintain
      rw [if_pos hm.1]
    rw [List.foldl_cons, ih (maintain c freq m x) (by rw [hlast]; exact hm.2) u2, hkeys]
    · simp
    · intro y hy z hz
      rw [hkeys] at hz
      rcases List.mem_append.mp hz with hz | hz
      · exact hk y (.tail _ hy) z hz
      · rw [List.mem_singleton.mp hz]
        exact u1 y hy

/-- C133, violated: nothing makes keys live as long as the interval between new ones. If they do not, there are moments
between ticks that are in time at which every published address has expired and the mix has no private key at all. -/
theorem C133_gap_violated (c : KConf) (freq : Int) (hd : c.duration < freq) (x y : Tick) (hx : freq < x.time) (hy : y.time = x.time + freq) :
    let m := maintained c freq ⟨[], none, none⟩ [x, y]
    (∃ al, m.list.stmt = some al ∧ ∀ a ∈ al, a.expire < y.time) ∧ ∀ pk, m.list.getPrivateKey y.time pk = none := by
  have h : maintained c freq ⟨[], none, none⟩ [x, y] =
      ⟨{ addKey c x.time x.priv x.wrote ⟨[], none, none⟩ with keys := expireKeys y.time (addKey c x.time x.priv x.wrote ⟨[], none, none⟩).keys }, x.time⟩ := by
    unfold maintained
    simp only [List.foldl_cons, List.foldl_nil]
    have h1 : maintain c freq ⟨⟨[], none, none⟩, 0⟩ x = ⟨addKey c x.time x.priv x.wrote ⟨[], none, none⟩, x.time⟩ := by
      unfold maintain
      rw [if_pos (show (0 : Int) < x.time - freq by omega)]
    rw [h1]
    unfold maintain
    rw [if_neg (show ¬ x.time < y.time - freq by omega)]
  simp only [h]
  refine ⟨⟨_, rfl, ?_⟩, fun pk => ?_⟩
  · intro a ha
    simp only [setKey, stmtOf, List.filter_nil, List.nil_append, List.map_cons, List.map_nil, List.mem_singleton] at ha
    subst ha
    simp only
    omega
  · unfold KeyList.getPrivateKey
    have : expireKeys y.time (addKey c x.time x.priv x.wrote ⟨[], none, none⟩).keys = [] := by
      simp only [addKey, setKey, expireKeys, List.filter_nil, List.nil_append]
      rw [List.filter_eq_nil_iff]
      intro z hz
      rw [List.mem_singleton] at hz
      subst hz
      simp only [decide_eq_true_eq]
      omega
    rw [this]
    rfl

/-! ### the hypotheses can be met -/

/-- Keys for a day, a new one every hour, ticks every ten seconds. -/
def dayConf : KConf := ⟨fun s => fix32 s, [109], 86400, [7]⟩

def hourly : List Tick := [⟨1000000, List.replicate 32 1, true⟩, ⟨1000010, List.replicate 32 2, true⟩, ⟨1000020, List.replicate 32 3, false⟩]

example : Ticks 10 1000000 hourly ∧ (∀ s, (dayConf.pub s).length = 32) ∧ (3600 : Int) + 10 ≤ dayConf.duration ∧ (10 : Int) ≤ 3600 ∧
    ((maintained dayConf 3600 ⟨[], none, none⟩ hourly).list.keys.map fun x => x.2.expire) = [1086400] ∧
    boundary (maintained dayConf 5 ⟨[], none, none⟩ hourly).list.keys = (1086400, 1086420) := by
  refine ⟨⟨by decide, by decide, by decide, by decide, by decide, by decide, by decide, by decide, by decide, trivial⟩, fun s => ?_, by decide, by decide, by decide +kernel, by decide +kernel⟩
  simp [dayConf, fix32]
  omega

example : Far 5 0 hourly ∧ hourly.Pairwise fun x y => dayConf.pub x.priv ≠ dayConf.pub y.priv := by
  refine ⟨⟨by decide, by decide, by decide, trivial⟩, by decide⟩

end Verif.Mix

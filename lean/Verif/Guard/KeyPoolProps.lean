/-
Signing keys and the key pool: C41, C84, C88, C91.
-/
import Verif.Guard.KeyPool
import Verif.Guard.TokenProps

namespace Verif.Guard.KeyPool
open Verif.Asn1 Verif.Util
open Verif.Mix (fix32 fix64)
open Verif.Conf (be64 be64_length be64_inj)

/-! ### what is in the pool -/

/-- The id of the key is the hash of its contents, and its signer has signed it. -/
structure Signed (P : Prims) (k : PubKey) : Prop where
  id : P.sha256 k.image = k.keyID
  sig : P.verify k.signer k.keyID k.signature = true

/-- The key is signed by a known signer, or by the generator of the pool, and is for the usage of
the pool if that has one. -/
structure Trusted (P : Prims) (p : Pool) (k : PubKey) : Prop where
  signed : Signed P k
  signer : k.signer ∈ p.verifyKeys ∨ ∃ priv, p.gen.keys = some (k.signer, priv)
  usage : p.gen.usage ≠ [] → k.usage = p.gen.usage

/-- The invariant of the pool. -/
structure Inv (P : Prims) (p : Pool) : Prop where
  keys : ∀ r ∈ p.keys, r.2.keyID = r.1 ∧ Trusted P p r.2
  current : ∀ k, p.current = some k → Trusted P p k

theorem Trusted.mono {P : Prims} {p q : Pool} {k : PubKey} (h : Trusted P p k) (hg : q.gen = p.gen) (hv : ∀ k ∈ p.verifyKeys, k ∈ q.verifyKeys) :
    Trusted P q k :=
  ⟨h.signed, h.signer.imp (hv _) (by rw [hg]; exact id), by rw [hg]; exact h.usage⟩

theorem verify_signed {P : Prims} {k : PubKey} (h : k.verify P k.signer = true) : Signed P k := by
  unfold PubKey.verify at h
  split at h
  · cases h
  · rename_i e
    have e : k.calc P = k.keyID := Decidable.not_not.mp e
    exact ⟨e, by rw [← e]; exact h⟩

/-- What a key that is accepted by `loadKey` satisfies. -/
structure Accepted (P : Prims) (p : Pool) (now : Int) (k : PubKey) : Prop where
  usage : p.gen.usage ≠ [] → k.usage = p.gen.usage
  expire : now ≤ k.expire
  signer : k.signer ∈ p.verifyKeys
  signed : Signed P k

theorem Accepted.trusted {P : Prims} {p : Pool} {now : Int} {k : PubKey} (h : Accepted P p now k) : Trusted P p k :=
  ⟨h.signed, .inl h.signer, h.usage⟩

/-- The outcomes of `loadKey`. -/
theorem loadKey_cases (P : Prims) (p : Pool) (now : Int) (k : PubKey) :
    ((p.loadKey P now k).1 = p ∧ usable (p.loadKey P now k).2 = false) ∨
    (Accepted P p now k ∧ ∃ k', p.find k.keyID = some k' ∧ p.loadKey P now k = (p, .error .exists)) ∨
    (Accepted P p now k ∧ p.find k.keyID = none ∧ p.loadKey P now k = ({ p with keys := (k.keyID, k) :: p.keys }, .ok k.keyID)) := by
  unfold Pool.loadKey
  split
  · exact .inl ⟨rfl, rfl⟩
  · rename_i h1
    split
    · exact .inl ⟨rfl, rfl⟩
    · split
      · exact .inl ⟨rfl, rfl⟩
      · rename_i h2 h3
        split
        · exact .inl ⟨rfl, rfl⟩
        · rename_i h4
          have ha : Accepted P p now k := by
            refine ⟨fun hu => Decidable.byContradiction fun hn => h1 ⟨hu, hn⟩, by omega, ?_, verify_signed (by simpa using h4)⟩
            have h3 : p.hasVerifyKey k.signer = true := by simpa using h3
            simpa [Pool.hasVerifyKey] using h3
          split
          · rename_i k' hk
            exact .inr (.inl ⟨ha, k', hk, rfl⟩)
          · rename_i hk
            exact .inr (.inr ⟨ha, hk, rfl⟩)

/-- The generator and the verification keys of a pool. -/
def Same (p q : Pool) : Prop := q.gen = p.gen ∧ q.verifyKeys = p.verifyKeys

theorem loadKey_same (P : Prims) (p : Pool) (now : Int) (k : PubKey) : Same p (p.loadKey P now k).1 := by
  rcases loadKey_cases P p now k with h | ⟨_, _, _, h⟩ | ⟨_, _, h⟩ <;> (try rw [h]) <;> (try rw [h.1]) <;> exact ⟨rfl, rfl⟩

theorem loadKey_inv {P : Prims} {p : Pool} (h : Inv P p) (now : Int) (k : PubKey) : Inv P (p.loadKey P now k).1 := by
  rcases loadKey_cases P p now k with e | ⟨_, _, _, e⟩ | ⟨ha, _, e⟩
  · rw [e.1]; exact h
  · rw [e]; exact h
  · rw [e]
    refine ⟨?_, fun k hk => (h.current k hk).mono rfl fun _ => id⟩
    intro r hr
    rcases List.mem_cons.mp hr with rfl | hr
    · exact ⟨rfl, ha.trusted.mono rfl fun _ => id⟩
    · exact ⟨(h.keys r hr).1, (h.keys r hr).2.mono rfl fun _ => id⟩

theorem fetch_ok {P : Prims} {utf8 : Bytes → Bool} {now : Int} (s : Source) (p : Pool) :
    Same p (s.fetch P utf8 now p).1 ∧ (Inv P p → Inv P (s.fetch P utf8 now p).1) := by
  unfold Source.fetch
  split
  · exact ⟨⟨rfl, rfl⟩, id⟩
  · exact ⟨⟨rfl, rfl⟩, id⟩
  · split
    · exact ⟨⟨rfl, rfl⟩, id⟩
    · exact ⟨loadKey_same .., fun h => loadKey_inv h ..⟩

theorem fetchAll_ok {P : Prims} {utf8 : Bytes → Bool} {now : Int} (ss : List Source) (p : Pool) :
    Same p (fetchAll P utf8 now p ss).1 ∧ (Inv P p → Inv P (fetchAll P utf8 now p ss).1) := by
  induction ss generalizing p with
  | nil => exact ⟨⟨rfl, rfl⟩, id⟩
  | cons s ss ih =>
    obtain ⟨h1, h2⟩ := fetch_ok (P := P) (utf8 := utf8) (now := now) s p
    unfold fetchAll
    split
    · rename_i p' d e
      rw [e] at h1 h2
      exact ⟨h1, h2⟩
    · rename_i p' e
      rw [e] at h1 h2
      obtain ⟨h3, h4⟩ := ih p'
      exact ⟨⟨by rw [h3.1, h1.1], by rw [h3.2, h1.2]⟩, fun h => h4 (h2 h)⟩

theorem take_ok {P : Prims} {utf8 : Bytes → Bool} {now : Int} (id d : Bytes) (p : Pool) :
    Same p (p.take P utf8 now id d).1 ∧ (Inv P p → Inv P (p.take P utf8 now id d).1) := by
  unfold Pool.take
  split
  · exact ⟨⟨rfl, rfl⟩, _root_.id⟩
  · exact ⟨loadKey_same .., fun h => loadKey_inv h ..⟩

theorem lookupFetch_ok {P : Prims} {utf8 : Bytes → Bool} {now : Int} (id : Bytes) (ss : List Source) (p : Pool) :
    Same p (p.lookupFetch P utf8 now id ss).1 ∧ (Inv P p → Inv P (p.lookupFetch P utf8 now id ss).1) := by
  unfold Pool.lookupFetch
  split
  · split
    · exact ⟨⟨rfl, rfl⟩, _root_.id⟩
    · obtain ⟨h1, h2⟩ := fetchAll_ok (P := P) (utf8 := utf8) (now := now) ss p
      split
      · rename_i p' e
        rw [e] at h1 h2
        exact ⟨h1, h2⟩
      · rename_i p' d e
        rw [e] at h1 h2
        obtain ⟨h3, h4⟩ := take_ok (P := P) (utf8 := utf8) (now := now) id d p'
        exact ⟨⟨by rw [h3.1, h1.1], by rw [h3.2, h1.2]⟩, fun h => h4 (h2 h)⟩
  · exact ⟨⟨rfl, rfl⟩, _root_.id⟩

theorem loadAll_ok {P : Prims} {utf8 : Bytes → Bool} {now : Int} (ds : List Bytes) (p : Pool) :
    Same p (p.loadAll P utf8 now ds) ∧ (Inv P p → Inv P (p.loadAll P utf8 now ds)) := by
  induction ds generalizing p with
  | nil => exact ⟨⟨rfl, rfl⟩, id⟩
  | cons d ds ih =>
    unfold Pool.loadAll
    split
    · exact ⟨⟨rfl, rfl⟩, id⟩
    · rename_i k _
      obtain ⟨h1, h2⟩ := ih (p.loadKey P now k).1
      have h3 := loadKey_same P p now k
      exact ⟨⟨by rw [h1.1, h3.1], by rw [h1.2, h3.2]⟩, fun h => h2 (loadKey_inv h ..)⟩

/-- The generator's signatures verify. -/
def GenOk (P : Prims) (g : Generator) : Prop := ∀ pub priv, g.keys = some (pub, priv) → ∀ m, P.verify pub m (P.sign priv m) = true

theorem genKey_image (P : Prims) (u pub priv : Bytes) (e now : Int) (x y : Nat) :
    (genKey P u e pub priv now x y).image = (PubKey.mk [] x y (now + e) u pub []).image := rfl

theorem genKey_trusted {P : Prims} {p : Pool} {pub priv : Bytes} (hg : GenOk P p.gen) (hk : p.gen.keys = some (pub, priv)) (now : Int) (x y : Nat) :
    Trusted P p (genKey P p.gen.usage p.gen.expireTime pub priv now x y) :=
  ⟨⟨rfl, hg _ _ hk _⟩, .inr ⟨priv, hk⟩, fun _ => rfl⟩

theorem currentKey_ok {P : Prims} (now : Int) (x y : Nat) (w : Bool) (p : Pool) (hg : GenOk P p.gen) :
    Same p (p.currentKey P now x y w).1 ∧ (Inv P p → Inv P (p.currentKey P now x y w).1) := by
  unfold Pool.currentKey
  split
  · exact ⟨⟨rfl, rfl⟩, id⟩
  · rename_i pub priv hk
    split
    · split
      · refine ⟨⟨rfl, rfl⟩, fun h => ⟨?_, ?_⟩⟩
        · intro r hr
          rcases List.mem_cons.mp hr with rfl | hr
          · exact ⟨rfl, (genKey_trusted hg hk now x y).mono rfl fun _ => id⟩
          · exact ⟨(h.keys r hr).1, (h.keys r hr).2.mono rfl fun _ => id⟩
        · intro k hk'
          cases hk'
          exact (genKey_trusted hg hk now x y).mono rfl fun _ => id
      · exact ⟨⟨rfl, rfl⟩, id⟩
    · split <;> exact ⟨⟨rfl, rfl⟩, id⟩

theorem step_ok {P : Prims} {utf8 : Bytes → Bool} {p : Pool} (hg : GenOk P p.gen) (h : Inv P p) (op : Op) :
    Inv P (step P utf8 p op) ∧ (step P utf8 p op).gen = p.gen ∧
    ∀ k, k ∈ (step P utf8 p op).verifyKeys ↔ op = .addVerifyKey k ∨ k ∈ p.verifyKeys := by
  cases op with
  | addVerifyKey k =>
    refine ⟨⟨fun r hr => ⟨(h.keys r hr).1, (h.keys r hr).2.mono rfl fun _ => List.mem_cons_of_mem _⟩, fun c hc => (h.current c hc).mono rfl fun _ => List.mem_cons_of_mem _⟩, rfl, ?_⟩
    intro k'
    simp only [step, Pool.addVerifyKey, List.mem_cons, Op.addVerifyKey.injEq]
    exact or_congr_left eq_comm
  | load now k =>
    have hs := loadKey_same P p now k
    exact ⟨loadKey_inv h now k, hs.1, fun k' => by simp [step, hs.2]⟩
  | loadAll now ds =>
    have hs := loadAll_ok (P := P) (utf8 := utf8) (now := now) ds p
    exact ⟨hs.2 h, hs.1.1, fun k' => by simp [step, hs.1.2]⟩
  | lookup now id ss =>
    have hs := lookupFetch_ok (P := P) (utf8 := utf8) (now := now) id ss p
    exact ⟨hs.2 h, hs.1.1, fun k' => by simp [step, hs.1.2]⟩
  | current now x y w =>
    have hs := currentKey_ok (P := P) now x y w p hg
    exact ⟨hs.2 h, hs.1.1, fun k' => by simp [step, hs.1.2]⟩

theorem run_ok {P : Prims} {utf8 : Bytes → Bool} (ops : List Op) (p : Pool) (hg : GenOk P p.gen) (h : Inv P p) :
    Inv P (run P utf8 p ops) ∧ (run P utf8 p ops).gen = p.gen ∧
    ∀ k, k ∈ (run P utf8 p ops).verifyKeys ↔ Op.addVerifyKey k ∈ ops ∨ k ∈ p.verifyKeys := by
  induction ops generalizing p with
  | nil => exact ⟨h, rfl, by simp [run]⟩
  | cons op ops ih =>
    obtain ⟨h1, h2, h3⟩ := step_ok (utf8 := utf8) hg h op
    obtain ⟨h4, h5, h6⟩ := ih (step P utf8 p op) (by rw [h2]; exact hg) h1
    refine ⟨h4, by rw [← h2]; exact h5, ?_⟩
    intro k
    show k ∈ (run P utf8 (step P utf8 p op) ops).verifyKeys ↔ _
    rw [h6, h3, List.mem_cons]
    constructor
    · rintro (h | h | h)
      · exact .inl (.inr h)
      · exact .inl (.inl h.symm)
      · exact .inr h
    · rintro ((h | h) | h)
      · exact .inr (.inl h.symm)
      · exact .inl h
      · exact .inr (.inr h)

theorem new_inv (P : Prims) (g : Generator) : Inv P (Pool.new g) := ⟨nofun, nofun⟩

theorem find_mem {p : Pool} {id : Bytes} {k : PubKey} (h : p.find id = some k) : (id, k) ∈ p.keys := by
  obtain ⟨r, hr, e⟩ := Option.map_eq_some_iff.mp h
  have h1 := List.mem_of_find?_eq_some hr
  have h2 : (r.1 == id) = true := List.find?_some (p := fun r : Bytes × PubKey => r.1 == id) hr
  rw [← eq_of_beq h2, ← e]
  exact h1

/-- What `Lookup` returns. -/
theorem lookupFetch_key {P : Prims} {utf8 : Bytes → Bool} {now : Int} {id : Bytes} {ss : List Source} {p : Pool} {k : PubKey} (hi : Inv P p)
    (h : (p.lookupFetch P utf8 now id ss).2 = .ok k) : k.keyID = id ∧ now ≤ k.expire ∧ Trusted P p k := by
  unfold Pool.lookupFetch at h
  split at h
  · split at h
    · cases h
    · obtain ⟨hs, _⟩ := fetchAll_ok (P := P) (utf8 := utf8) (now := now) ss p
      split at h
      · cases h
      · rename_i p' d e
        rw [e] at hs
        unfold Pool.take at h
        split at h
        · cases h
        · rename_i k' _
          simp only at h
          split at h
          · rename_i hu
            split at h
            · rename_i hid
              cases h
              refine ⟨hid, ?_⟩
              rcases loadKey_cases P p' now k with e | ⟨ha, _⟩ | ⟨ha, _⟩
              · rw [e.2] at hu; cases hu
              · exact ⟨ha.expire, ha.trusted.mono hs.1.symm (by intro k hk; have := hs.2; simp only at this; rw [this] at hk; exact hk)⟩
              · exact ⟨ha.expire, ha.trusted.mono hs.1.symm (by intro k hk; have := hs.2; simp only at this; rw [this] at hk; exact hk)⟩
            · cases h
          · cases h
  · rename_i hr
    unfold Pool.lookup at h
    split at h
    · rename_i k' hk
      split at h
      · cases h
        have := hi.keys _ (find_mem hk)
        exact ⟨this.1, by omega, this.2⟩
      · cases h
    · cases h

/-- C41: whatever was done with the pool before, a lookup returns only a key that has the
requested id, whose id is the hash of its contents, that is signed by a verification key that
was added before (or by the key of the pool's own generator), that has not expired, and that is
for the usage of the pool. -/
theorem C41_lookup (P : Prims) (utf8 : Bytes → Bool) (g : Generator) (hg : GenOk P g) (ops : List Op) (now : Int) (id : Bytes) (sources : List Source) (k : PubKey)
    (h : ((run P utf8 (Pool.new g) ops).lookupFetch P utf8 now id sources).2 = .ok k) :
    k.keyID = id ∧ P.sha256 k.image = id ∧ P.verify k.signer id k.signature = true ∧ now ≤ k.expire ∧
    (Op.addVerifyKey k.signer ∈ ops ∨ ∃ priv, g.keys = some (k.signer, priv)) ∧ (g.usage ≠ [] → k.usage = g.usage) := by
  obtain ⟨hi, hgen, hv⟩ := run_ok (P := P) (utf8 := utf8) ops (Pool.new g) hg (new_inv P g)
  obtain ⟨h1, h2, h3⟩ := lookupFetch_key hi h
  refine ⟨h1, by rw [h3.signed.id, h1], by rw [← h1]; exact h3.signed.sig, h2, ?_, ?_⟩
  · rcases h3.signer with h4 | h4
    · exact .inl (by simpa [Pool.new] using (hv _).mp h4)
    · rw [hgen] at h4
      exact .inr h4
  · have := h3.usage
    rw [hgen] at this
    exact this

/-- The keys of a pool without generator are never replaced. -/
theorem step_find {P : Prims} {utf8 : Bytes → Bool} {p : Pool} (hg : p.gen.keys = none) (op : Op) {id : Bytes} {k : PubKey} (h : p.find id = some k) :
    (step P utf8 p op).find id = some k := by
  have hload : ∀ (p : Pool) now k', p.find id = some k → ((p.loadKey P now k').1).find id = some k := by
    intro p now k' h
    rcases loadKey_cases P p now k' with e | ⟨_, _, _, e⟩ | ⟨_, hn, e⟩
    · rw [e.1]; exact h
    · rw [e]; exact h
    · rw [e]
      unfold Pool.find
      rw [List.find?_cons]
      split
      · rename_i he
        have he : k'.keyID = id := eq_of_beq he
        rw [he, h] at hn
        cases hn
      · exact h
  cases op with
  | addVerifyKey k => exact h
  | load now k => exact hload p now k h
  | loadAll now ds =>
    show (p.loadAll P utf8 now ds).find id = some k
    induction ds generalizing p with
    | nil => exact h
    | cons d ds ih =>
      unfold Pool.loadAll
      split
      · exact h
      · exact ih (by rw [(loadKey_same P p now _).1]; exact hg) (hload p now _ h)
  | lookup now id' ss =>
    have hfetch : ∀ (ss : List Source) (p : Pool), p.find id = some k → ((fetchAll P utf8 now p ss).1).find id = some k := by
      intro ss
      induction ss with
      | nil => exact fun _ h => h
      | cons s ss ih =>
        intro p h
        have hs : ((s.fetch P utf8 now p).1).find id = some k := by
          unfold Source.fetch
          split
          · exact h
          · exact h
          · split
            · exact h
            · exact hload p now _ h
        unfold fetchAll
        split
        · rename_i e; rw [e] at hs; exact hs
        · rename_i e; rw [e] at hs; exact ih _ hs
    show ((p.lookupFetch P utf8 now id' ss).1).find id = some k
    unfold Pool.lookupFetch
    split
    · split
      · exact h
      · have hs := hfetch ss p h
        split
        · rename_i e; rw [e] at hs; exact hs
        · rename_i e
          rw [e] at hs
          unfold Pool.take
          split
          · exact hs
          · exact hload _ now _ hs
    · exact h
  | current now x y w =>
    show ((p.currentKey P now x y w).1).find id = some k
    unfold Pool.currentKey
    rw [hg]
    exact h

theorem step_gen {P : Prims} {utf8 : Bytes → Bool} {p : Pool} (hg : p.gen.keys = none) (op : Op) : (step P utf8 p op).gen = p.gen := by
  cases op with
  | addVerifyKey k => rfl
  | load now k => exact (loadKey_same P p now k).1
  | loadAll now ds => exact (loadAll_ok ds p).1.1
  | lookup now id ss => exact (lookupFetch_ok id ss p).1.1
  | current now x y w => exact (currentKey_ok now x y w p (by intro _ _ h; rw [hg] at h; cases h)).1.1

/-- C41, the other direction: in a client (a pool without generator), a key that is signed by a
known signer, has the right usage and was loaded before it expired is found as long as it has
not expired, whatever happens to the pool in between. -/
theorem C41_found (P : Prims) (utf8 : Bytes → Bool) (p : Pool) (hg : p.gen.keys = none) (k : PubKey) (now : Int)
    (hu : p.gen.usage ≠ [] → k.usage = p.gen.usage) (he : now ≤ k.expire) (hv : k.signer ∈ p.verifyKeys)
    (hid : P.sha256 k.image = k.keyID) (hs : P.verify k.signer k.keyID k.signature = true) (hn : p.find k.keyID = none)
    (ops : List Op) (now' : Int) (hl : now' < k.expire) (sources : List Source) :
    ((run P utf8 p (.load now k :: ops)).lookupFetch P utf8 now' k.keyID sources).2 = .ok k := by
  have h0 : (step P utf8 p (.load now k)).find k.keyID = some k := by
    show ((p.loadKey P now k).1).find k.keyID = some k
    unfold Pool.loadKey
    rw [if_neg (fun h => h.2 (hu h.1)), if_neg (by omega), if_neg (by simp [Pool.hasVerifyKey, hv]), if_neg, hn]
    · simp [Pool.find]
    · unfold PubKey.verify PubKey.calc
      rw [if_neg (by simp [hid]), hid, hs]
      decide
  have key : ∀ (ops : List Op) (p : Pool), p.gen.keys = none → p.find k.keyID = some k → (run P utf8 p ops).find k.keyID = some k := by
    intro ops
    induction ops with
    | nil => exact fun _ _ h => h
    | cons op ops ih =>
      intro p hg h
      exact ih (step P utf8 p op) (by rw [step_gen hg]; exact hg) (step_find hg op h)
  have h1 := key ops _ (by rw [step_gen hg]; exact hg) h0
  have h2 : (run P utf8 p (.load now k :: ops)).find k.keyID = some k := h1
  have h3 : (run P utf8 p (.load now k :: ops)).lookup now' k.keyID = .ok k := by
    unfold Pool.lookup
    rw [h2]
    simp [hl]
  unfold Pool.lookupFetch
  rw [h3]

/-- Loading a key that is for another usage, has expired, has an unknown signer or a wrong id or
signature changes nothing. -/
theorem C41_rejected (P : Prims) (p : Pool) (now : Int) (k : PubKey)
    (h : (p.gen.usage ≠ [] ∧ k.usage ≠ p.gen.usage) ∨ k.expire < now ∨ k.signer ∉ p.verifyKeys ∨ P.sha256 k.image ≠ k.keyID ∨
      P.verify k.signer k.keyID k.signature = false) :
    (p.loadKey P now k).1 = p ∧ ∃ e, e ≠ Err.exists ∧ (p.loadKey P now k).2 = .error e := by
  have hn : ¬ Accepted P p now k := by
    intro a
    rcases h with h | h | h | h | h
    · exact h.2 (a.usage h.1)
    · have := a.expire; omega
    · exact h a.signer
    · exact h a.signed.id
    · rw [a.signed.sig] at h; cases h
  rcases loadKey_cases P p now k with e | ⟨ha, _⟩ | ⟨ha, _⟩
  · refine ⟨e.1, ?_⟩
    generalize (p.loadKey P now k).2 = r at e
    cases r with
    | ok _ => cases e.2
    | error e' => exact ⟨e', fun he => (by rw [he] at e; cases e.2), rfl⟩
  · exact absurd ha hn
  · exact absurd ha hn

/-- A pool for testing, whose hash is the length of its input. -/
def exKey : PubKey := ⟨[1], 5, 6, 100, [117], List.replicate 32 1, List.replicate 64 7⟩
def exKeyPrims : Prims := ⟨fun _ => [1], fun _ _ => List.replicate 64 7, fun _ _ s => s == List.replicate 64 7⟩

/-- Non-vacuity: a key is added and found, by a lookup of the pool and by one of a storage. -/
example : ((run exKeyPrims (fun _ => true) (Pool.new ⟨[], 0, none⟩) [.addVerifyKey (List.replicate 32 1), .load 50 exKey]).lookupFetch exKeyPrims (fun _ => true) 99 [1] []).2 = .ok exKey := by
  have := C41_found exKeyPrims (fun _ => true) (run exKeyPrims (fun _ => true) (Pool.new ⟨[], 0, none⟩) [.addVerifyKey (List.replicate 32 1)]) rfl exKey 50
    (by decide) (by decide) (by decide) rfl (by decide) (by decide) [] 99 (by decide) []
  exact this

/-! ### C84 the key ID -/

theorem setBytes_append (a b : Bytes) : setBytes (a ++ b) = b.foldl (fun a c => a * 256 + c.toNat) (setBytes a) := by
  simp [setBytes, List.foldl_append]

theorem base256_mul (a b : Nat) (hb : b < 256) (h : 0 < 256 * a + b) : base256 (256 * a + b) = base256 a ++ [UInt8.ofNat b] := by
  rw [base256, dif_neg (by omega), show (256 * a + b) / 256 = a by omega, show (256 * a + b) % 256 = b by omega]

theorem setBytes_base256 (n : Nat) : setBytes (base256 n) = n := by
  induction n using Nat.strongRecOn with
  | ind n ih =>
    by_cases h : n = 0
    · subst h; rw [base256]; rfl
    · rw [base256, dif_neg h, setBytes_append, ih (n / 256) (by omega)]
      simp only [List.foldl_cons, List.foldl_nil, UInt8.toNat_ofNat']
      omega

theorem base256_inj {m n : Nat} (h : base256 m = base256 n) : m = n := by
  rw [← setBytes_base256 m, ← setBytes_base256 n, h]

theorem base256_cons (b y : Nat) (hb : 0 < b ∧ b < 256) : base256 (b * 256 ^ (base256 y).length + y) = UInt8.ofNat b :: base256 y := by
  induction y using Nat.strongRecOn with
  | ind y ih =>
    by_cases h : y = 0
    · subst h
      rw [show base256 0 = [] by rw [base256]; rfl]
      have := base256_mul 0 b hb.2 (by omega)
      simp only [Nat.mul_zero, Nat.zero_add] at this
      simp only [List.length_nil, Nat.pow_zero, Nat.mul_one, Nat.add_zero]
      rw [this, base256]
      rfl
    · have e : base256 y = base256 (y / 256) ++ [UInt8.ofNat (y % 256)] := by rw [base256, dif_neg h]
      have h1 := ih (y / 256) (by omega)
      have h2 : b * 256 ^ (base256 y).length + y = 256 * (b * 256 ^ (base256 (y / 256)).length + y / 256) + y % 256 := by
        rw [e, List.length_append, List.length_singleton, Nat.pow_succ, ← Nat.mul_assoc]
        omega
      rw [h2, base256_mul _ _ (by omega) (by rw [← h2]; omega), h1, e]
      rfl

/-- C84, partial: keys with the same id agree in point, expiry, usage and signer, unless SHA-256
collides, if their coordinates take the same number of bytes. Missing: coordinates of different
length, for which it is false (`C84_moved_byte`). -/
theorem C84_same_id_partial (P : Prims) (k l : PubKey) (hk : -2 ^ 63 ≤ k.expire ∧ k.expire < 2 ^ 63) (hl : -2 ^ 63 ≤ l.expire ∧ l.expire < 2 ^ 63)
    (hks : k.signer.length = 32) (hls : l.signer.length = 32)
    (hx : (base256 k.x).length = (base256 l.x).length) (hy : (base256 k.y).length = (base256 l.y).length)
    (h : P.sha256 k.image = P.sha256 l.image) :
    (k.x = l.x ∧ k.y = l.y ∧ k.expire = l.expire ∧ k.usage = l.usage ∧ k.signer = l.signer) ∨ Collision P := by
  rcases hash_eq h with h | h
  · left
    unfold PubKey.image at h
    obtain ⟨h1, h⟩ := List.append_inj h hx
    obtain ⟨h2, h⟩ := List.append_inj h hy
    obtain ⟨h3, h⟩ := List.append_inj h (by rw [be64_length, be64_length])
    have hlen := congrArg List.length h
    simp only [List.length_append, List.length_cons, List.length_nil, hks, hls] at hlen
    obtain ⟨h4, h5⟩ := List.append_inj h (by simp only [List.length_append, List.length_cons, List.length_nil]; omega)
    have h6 := List.append_cancel_right (List.cons.inj h4).2
    have h7 := be64_inj (by omega) (by omega) h3
    exact ⟨base256_inj h1, base256_inj h2, by omega, h6, h5⟩
  · exact .inr h

/-- C84, violation: the last byte of the first coordinate, if it is not zero, can be moved to the
front of the second one. The two keys have different points, but the same id, so that a
signature for one is a signature for the other. (Neither is checked to be on the curve.) -/
theorem C84_moved_byte (P : Prims) (a b y : Nat) (hb : 0 < b ∧ b < 256) (id : Bytes) (expire : Int) (usage signer sig : Bytes) :
    let k : PubKey := ⟨id, 256 * a + b, y, expire, usage, signer, sig⟩
    let l : PubKey := ⟨id, a, b * 256 ^ (base256 y).length + y, expire, usage, signer, sig⟩
    k.x ≠ l.x ∧ P.sha256 k.image = P.sha256 l.image ∧ k.verify P signer = l.verify P signer := by
  have e : (PubKey.mk id (256 * a + b) y expire usage signer sig).image =
      (PubKey.mk id a (b * 256 ^ (base256 y).length + y) expire usage signer sig).image := by
    simp only [PubKey.image, base256_mul a b hb.2 (by omega), base256_cons b y hb, List.append_assoc, List.cons_append, List.nil_append]
  refine ⟨by simp only; omega, by rw [e], ?_⟩
  simp only [PubKey.verify, PubKey.calc, e]
  rfl

example : (base256 exKey.x).length = (base256 exKey.y).length ∧ exKey.signer.length = 32 := by
  refine ⟨?_, by decide⟩
  rw [show exKey.x = 256 * 0 + 5 from rfl, base256_mul 0 5 (by decide) (by decide), show exKey.y = 256 * 0 + 6 from rfl, base256_mul 0 6 (by decide) (by decide)]
  simp

/-! ### C88 the current key -/

/-- What holds instead of C88: over every history, the key `Current` returns has not been expired
for more than half of the expiry time. It is signed by the generator, and lookups find it. -/
theorem C88_half_partial (P : Prims) (p : Pool) (now : Int) (x y : Nat) (w : Bool) (k : PubKey) (prev : Option PubKey) (hpos : 0 ≤ p.gen.expireTime)
    (h : (p.currentKey P now x y w).2 = .ok (k, prev)) : now - p.gen.expireTime.tdiv 2 ≤ k.expire := by
  unfold Pool.currentKey at h
  split at h
  · cases h
  · split at h
    · split at h
      · cases h
        show now - p.gen.expireTime.tdiv 2 ≤ now + p.gen.expireTime
        have : 0 ≤ p.gen.expireTime.tdiv 2 := Int.tdiv_nonneg hpos (by decide)
        omega
      · cases h
    · rename_i hn
      split at h
      · rename_i c hc
        cases h
        simp only [Pool.needsKey, hc, decide_eq_true_eq] at hn
        omega
      · cases h

/-- A new key is not expired, and is the one that lookups find. -/
theorem C88_new_key_partial (P : Prims) (p : Pool) (now : Int) (x y : Nat) (pub priv : Bytes) (hk : p.gen.keys = some (pub, priv)) (hc : p.current = none)
    (hpos : 0 < p.gen.expireTime) :
    ∃ p' k, p.currentKey P now x y true = (p', .ok (k, p.previous)) ∧ now < k.expire ∧ p'.lookup now k.keyID = .ok k ∧ p'.current = some k := by
  unfold Pool.currentKey
  rw [hk]
  simp only [Pool.needsKey, hc, if_true]
  refine ⟨_, _, rfl, ?_, ?_, rfl⟩
  · show now < now + p.gen.expireTime
    omega
  · unfold Pool.lookup Pool.find
    simp only [List.find?_cons, BEq.rfl, Option.map_some]
    rw [if_pos]
    show now + p.gen.expireTime > now
    omega

/-- C88: when the current key is replaced, it is returned as the previous key, by this call and by
those that follow until the next replacement, and the pool keeps every key it has under another ID. -/
theorem C88_rotation (P : Prims) (p : Pool) (now : Int) (x y : Nat) (c : PubKey) (hc : p.current = some c) (hn : p.needsKey now = true)
    (p' : Pool) (k : PubKey) (prev : Option PubKey) (h : p.currentKey P now x y true = (p', .ok (k, prev))) :
    prev = some c ∧ p'.current = some k ∧ (∀ id, id ≠ k.keyID → p'.find id = p.find id) ∧
      ∀ now' x' y' w, p'.needsKey now' = false → p'.currentKey P now' x' y' w = (p', .ok (k, some c)) := by
  unfold Pool.currentKey at h
  split at h
  · cases h
  · rename_i pub priv hk
    rw [if_pos hn, if_pos rfl] at h
    simp only [hc] at h
    obtain ⟨rfl, h2⟩ := Prod.mk.inj h
    cases h2
    refine ⟨rfl, rfl, ?_, ?_⟩
    · intro id hid
      unfold Pool.find
      simp only [List.find?_cons]
      rw [show ((genKey P p.gen.usage p.gen.expireTime pub priv now x y).keyID == id) = false by simpa using fun e => hid e.symm]
    · intro now' x' y' w hn'
      unfold Pool.currentKey
      simp only [hk, hn', Bool.false_eq_true, if_false]

/-- Non-vacuity: a key made at time 0 and replaced at time 100. -/
example (P : Prims) : let p := (Pool.currentKey P (Pool.new ⟨[1], 10, some ([2], [3])⟩) 0 5 6 true).1
    ∃ c, p.current = some c ∧ p.needsKey 100 = true := ⟨_, rfl, rfl⟩

/-- C88, violation: a current key is kept until half of the expiry time after it has expired:
in that time `Current` returns it, and no lookup in the same pool finds it. -/
theorem C88_returns_expired (P : Prims) (t now : Int) (x y : Nat) (usage pub priv : Bytes) (e : Int) (hlo : t + e < now) (hhi : now ≤ t + e + e.tdiv 2) (w : Bool) (x' y' : Nat) :
    let p := (Pool.currentKey P (Pool.new ⟨usage, e, some (pub, priv)⟩) t x y true).1
    ∃ k, (p.currentKey P now x' y' w).2 = .ok (k, none) ∧ k.expire < now ∧ p.lookup now k.keyID = .error .expired := by
  refine ⟨genKey P usage e pub priv t x y, ?_, hlo, ?_⟩
  · simp only [Pool.currentKey, Pool.new, Pool.needsKey, if_true]
    rw [if_neg]
    simp only [decide_eq_true_eq]
    show ¬ (t + e < now - e.tdiv 2)
    omega
  · simp only [Pool.lookup, Pool.find, Pool.currentKey, Pool.new, Pool.needsKey, if_true, List.find?_cons, BEq.rfl, Option.map_some]
    rw [if_neg]
    show ¬ (t + e > now)
    omega

/-- Non-vacuity: a month of validity, two weeks after it. -/
example : (0 : Int) + 2592000 < 2592000 + 1000000 ∧ (2592000 + 1000000 : Int) ≤ 0 + 2592000 + (2592000 : Int).tdiv 2 := by decide

/-! ### C91 keys in storage -/

/-- C91: a key is read back from storage as it was written. -/
theorem C91_round_trip (utf8 : Bytes → Bool) (k : PubKey) (d : Bytes) (hi : k.keyID.length = 32) (hs : k.signer.length = 32) (hg : k.signature.length = 64)
    (he : -2 ^ 63 ≤ k.expire ∧ k.expire < 2 ^ 63) (hu : k.usage.length < 2 ^ 28) (hx : (base256 k.x).length < 2 ^ 28) (hy : (base256 k.y).length < 2 ^ 28)
    (h : k.marshal utf8 = some d) : PubKey.unmarshal utf8 d = some k := by
  unfold PubKey.marshal at h
  obtain ⟨u, hu', rfl⟩ := Option.map_eq_some_iff.mp h
  have hul : u.length ≤ k.usage.length + 6 := by
    unfold eStr at hu'
    split at hu'
    · cases hu'
      have := tlv_length 19 k.usage (by omega)
      omega
    · split at hu'
      · cases hu'
        have := tlv_length 12 k.usage (by omega)
        omega
      · cases hu'
  have t1 := tlv_length 4 k.keyID (by omega)
  have t2 := tlv_length 4 (base256 k.x) (by omega)
  have t3 := tlv_length 4 (base256 k.y) (by omega)
  have t4 : (encInt k.expire).length ≤ 8 := encInt_length 8 k.expire (by omega) (by omega)
  have t5 := tlv_length 2 (encInt k.expire) (by omega)
  have t6 := tlv_length 4 k.signer (by omega)
  have t7 := tlv_length 4 k.signature (by omega)
  unfold PubKey.unmarshal
  rw [← List.append_nil (tlv 48 _), readTLV_tlv]
  · simp only [Option.bind_some]
    rw [fBytes_eBytes _ (by omega)]
    simp only [Option.bind_some]
    rw [fBytes_eBytes _ (by omega)]
    simp only [Option.bind_some]
    rw [fBytes_eBytes _ (by omega)]
    simp only [Option.bind_some]
    rw [fInt64_eInt _ he]
    simp only [Option.bind_some]
    rw [fStr_eStr utf8 _ _ hu' (by omega)]
    simp only [Option.bind_some]
    rw [fBytes_eBytes _ (by omega)]
    simp only [Option.bind_some]
    rw [← List.append_nil (eBytes k.signature), fBytes_eBytes _ (by omega)]
    simp only [Option.bind_some, setBytes_base256, Verif.Mix.fix32_of_length hi, Verif.Mix.fix32_of_length hs, fix64_of_length hg]
  · simp only [List.length_append, eBytes, eInt] at *
    omega

/-- A key whose usage is text can be written. -/
theorem C91_writable (utf8 : Bytes → Bool) (k : PubKey) (h : utf8 k.usage = true) : ∃ d, k.marshal utf8 = some d := by
  unfold PubKey.marshal eStr
  split
  · exact ⟨_, rfl⟩
  · exact ⟨_, rfl⟩

/-- A key that was written to storage is accepted by a pool that knows its signer, as long as it
has not expired, and is found by its id: restarting loses no keys. -/
theorem C91_restart (P : Prims) (utf8 : Bytes → Bool) (p : Pool) (k : PubKey) (d : Bytes) (now : Int) (hi : k.keyID.length = 32) (hs : k.signer.length = 32)
    (hg : k.signature.length = 64) (he : -2 ^ 63 ≤ k.expire ∧ k.expire < 2 ^ 63) (hu : k.usage.length < 2 ^ 28) (hx : (base256 k.x).length < 2 ^ 28)
    (hy : (base256 k.y).length < 2 ^ 28) (h : k.marshal utf8 = some d)
    (hus : p.gen.usage ≠ [] → k.usage = p.gen.usage) (hv : k.signer ∈ p.verifyKeys) (hid : P.sha256 k.image = k.keyID)
    (hsig : P.verify k.signer k.keyID k.signature = true) (hn : p.find k.keyID = none) (hl : now < k.expire) :
    ((p.loadAll P utf8 now [d]).lookup now k.keyID) = .ok k := by
  unfold Pool.loadAll
  rw [C91_round_trip utf8 k d hi hs hg he hu hx hy h]
  simp only [Pool.loadAll]
  unfold Pool.loadKey
  rw [if_neg (fun h => h.2 (hus h.1)), if_neg (by omega), if_neg (by simp [Pool.hasVerifyKey, hv]), if_neg, hn]
  · simp [Pool.lookup, Pool.find, hl]
  · unfold PubKey.verify PubKey.calc
    rw [if_neg (by simp [hid]), hid, hsig]
    decide

end Verif.Guard.KeyPool

/-
Properties of the key server client: hash chains (C21, C22, C70), UID messages
from a key server (C23, C71), registration, deletion (C73, C74) and KeyInit
messages (C75).
-/
import Verif.Crypt.Model
import Verif.Uid.Props
import Verif.Util.Props

namespace Verif.Crypt

open Verif.Uid Verif.Util

/-! ### Helpers: the newest row -/

section top
variable {α : Type} (key : α → UInt64) (p : α → Bool)

/-- One step of `top`. -/
def topStep (best : Option α) (a : α) : Option α :=
  if p a then match best with
    | none => some a
    | some b => if key b < key a then some a else best
  else best

theorem top_eq (t : Sql.Table α) : top key p t = (Sql.vals t).foldl (topStep key p) none := rfl

theorem top_insert (t : Sql.Table α) (a : α) :
    top key p (Sql.insert t a) = topStep key p (top key p t) a := by
  rw [top_eq, top_eq, Sql.vals_insert, List.foldl_append]
  rfl

theorem foldl_top_some (l : List α) (best : Option α) (r : α)
    (h : l.foldl (topStep key p) best = some r) :
    ((r ∈ l ∧ p r = true) ∨ best = some r) ∧ (∀ b ∈ l, p b = true → key b ≤ key r) ∧
      (∀ b, best = some b → key b ≤ key r) := by
  induction l generalizing best with
  | nil =>
    simp only [List.foldl_nil] at h
    subst h
    simp
  | cons a l ih =>
    rw [List.foldl_cons] at h
    obtain ⟨h1, h2, h3⟩ := ih _ h
    by_cases hp : p a = true
    · cases best with
      | none =>
        have hs : topStep key p none a = some a := by simp [topStep, hp]
        rw [hs] at h1 h3
        refine ⟨?_, ?_, by simp⟩
        · rcases h1 with ⟨h1, h1'⟩ | h1
          · exact .inl ⟨List.mem_cons_of_mem _ h1, h1'⟩
          · injection h1 with h1; subst h1; exact .inl ⟨List.mem_cons_self, hp⟩
        · intro b hb hpb
          rcases List.mem_cons.mp hb with rfl | hb
          · exact h3 _ rfl
          · exact h2 b hb hpb
      | some c =>
        by_cases hlt : key c < key a
        · have hs : topStep key p (some c) a = some a := by simp [topStep, hp, hlt]
          rw [hs] at h1 h3
          refine ⟨?_, ?_, ?_⟩
          · rcases h1 with ⟨h1, h1'⟩ | h1
            · exact .inl ⟨List.mem_cons_of_mem _ h1, h1'⟩
            · injection h1 with h1; subst h1; exact .inl ⟨List.mem_cons_self, hp⟩
          · intro b hb hpb
            rcases List.mem_cons.mp hb with rfl | hb
            · exact h3 _ rfl
            · exact h2 b hb hpb
          · intro b hb
            injection hb with hb
            subst hb
            have := h3 a rfl
            rw [UInt64.le_iff_toNat_le] at *
            rw [UInt64.lt_iff_toNat_lt] at hlt
            omega
        · have hs : topStep key p (some c) a = some c := by simp [topStep, hp, hlt]
          rw [hs] at h1 h3
          refine ⟨?_, ?_, h3⟩
          · rcases h1 with ⟨h1, h1'⟩ | h1
            · exact .inl ⟨List.mem_cons_of_mem _ h1, h1'⟩
            · exact .inr h1
          · intro b hb hpb
            rcases List.mem_cons.mp hb with rfl | hb
            · have := h3 c rfl
              rw [UInt64.le_iff_toNat_le] at *
              rw [UInt64.lt_iff_toNat_lt] at hlt
              omega
            · exact h2 b hb hpb
    · have hs : topStep key p best a = best := by simp [topStep, hp]
      rw [hs] at h1 h3
      refine ⟨?_, ?_, h3⟩
      · rcases h1 with ⟨h1, h1'⟩ | h1
        · exact .inl ⟨List.mem_cons_of_mem _ h1, h1'⟩
        · exact .inr h1
      · intro b hb hpb
        rcases List.mem_cons.mp hb with rfl | hb
        · exact absurd hpb hp
        · exact h2 b hb hpb

theorem top_some {t : Sql.Table α} {r : α} (h : top key p t = some r) :
    r ∈ Sql.vals t ∧ p r = true ∧ ∀ b ∈ Sql.vals t, p b = true → key b ≤ key r := by
  obtain ⟨h1, h2, -⟩ := foldl_top_some key p _ none r h
  rcases h1 with h1 | h1
  · exact ⟨h1.1, h1.2, h2⟩
  · contradiction

theorem foldl_top_isSome (l : List α) (best : Option α) (hb : best.isSome) :
    (l.foldl (topStep key p) best).isSome := by
  induction l generalizing best with
  | nil => exact hb
  | cons a l ih =>
    rw [List.foldl_cons]
    apply ih
    cases best with
    | none => contradiction
    | some c =>
      unfold topStep
      split
      · simp only; split <;> rfl
      · rfl

theorem foldl_top_none (l : List α) (h : l.foldl (topStep key p) none = none) :
    ∀ b ∈ l, p b = false := by
  induction l with
  | nil => simp
  | cons a l ih =>
    rw [List.foldl_cons] at h
    have hpa : p a = false := by
      cases hp : p a with
      | false => rfl
      | true =>
        have hs : topStep key p none a = some a := by simp [topStep, hp]
        have := foldl_top_isSome key p l (some a) rfl
        rw [hs] at h
        rw [h] at this
        contradiction
    have hs : topStep key p none a = none := by simp [topStep, hpa]
    rw [hs] at h
    intro b hb
    rcases List.mem_cons.mp hb with rfl | hb
    · exact hpa
    · exact ih h b hb

theorem top_none {t : Sql.Table α} (h : top key p t = none) : ∀ b ∈ Sql.vals t, p b = false :=
  foldl_top_none key p _ h

theorem top_isSome {t : Sql.Table α} {b : α} (hb : b ∈ Sql.vals t) (hp : p b = true) :
    ∃ r, top key p t = some r := by
  cases h : top key p t with
  | some r => exact ⟨r, rfl⟩
  | none =>
    have := top_none key p h b hb
    rw [hp] at this
    contradiction

end top

/-! ### C21 validated hash chains -/

/-- The local hash chain of a domain as the engine reads it: a non-empty list of
decoded entries, one for each position from 0 to the last one. -/
def Reads (I : Ids) (db : DB) (domain : Str) (es : List Util.Entry) : Prop :=
  (∃ max, lastPos I db domain = some max ∧ es.length = max.toNat + 1) ∧
  ∀ i, ∀ h : i < es.length, ∃ s, getEntry I db domain (UInt64.ofNat i) = .ok s ∧
    es[i].Widths ∧ es[i].typ = [1] ∧ Base64.decode s = some es[i].bytes

/-- The hash an entry is linked to: that of its predecessor, or 32 zero bytes. -/
def prevHash (es : List Util.Entry) (i : Nat) : Bytes :=
  if i = 0 then List.replicate 32 0 else (es[i - 1]?.map (·.hash)).getD []

/-- The 153 bytes whose hash entry `i` must carry: its fields and the hash of its
predecessor. -/
def linkBytes (es : List Util.Entry) (i : Nat) (e : Util.Entry) : Bytes :=
  e.typ ++ e.nonce ++ e.hashID ++ e.crUID ++ e.uidIndex ++ prevHash es i

/-- Every entry carries the hash of its fields and its predecessor's hash. -/
def Linked (P : Prims) (es : List Util.Entry) : Prop :=
  ∀ i, ∀ h : i < es.length, es[i].hash = P.sha256 (linkBytes es i es[i])

theorem split_ok {s : Str} {e : Util.Entry} :
    split s = .ok e ↔ e.Widths ∧ e.typ = [1] ∧ Base64.decode s = some e.bytes := by
  rw [← (C20_split_entry_exact s).2 e]
  unfold split
  cases splitEntry s <;> simp

/-- The loop of the validation accepts exactly the readable, linked chains. -/
theorem validateLoop_ok (P : Prims) (I : Ids) (db : DB) (domain : Str) (n k : Nat) (prev : Bytes) :
    validateLoop P I db domain ((List.range' k n).map UInt64.ofNat) prev = .ok () ↔
      ∃ es : List Util.Entry, es.length = n ∧
        (∀ i, ∀ h : i < es.length, ∃ s, getEntry I db domain (UInt64.ofNat (k + i)) = .ok s ∧
          es[i].Widths ∧ es[i].typ = [1] ∧ Base64.decode s = some es[i].bytes) ∧
        (∀ i, ∀ h : i < es.length, es[i].hash = P.sha256 (preimage es[i]
          (if i = 0 then prev else (es[i - 1]?.map (·.hash)).getD []))) := by
  induction n generalizing k prev with
  | zero =>
    simp only [List.range'_zero, List.map_nil, validateLoop, true_iff]
    exact ⟨[], rfl, fun i h => by simp at h, fun i h => by simp at h⟩
  | succ n ih =>
    simp only [List.range'_succ, List.map_cons, validateLoop, Res.bind_eq_ok, split_ok]
    constructor
    · rintro ⟨s, hs, e, ⟨hw, ht, hb⟩, h⟩
      rw [if_neg (by simp [ht])] at h
      split at h
      · contradiction
      · rename_i heq
        have heq := Decidable.not_not.mp heq
        obtain ⟨es, hl, h1, h2⟩ := (ih _ _).mp h
        refine ⟨e :: es, by simp [hl], ?_, ?_⟩
        · intro i hi
          cases i with
          | zero => exact ⟨s, hs, hw, ht, hb⟩
          | succ i =>
            obtain ⟨s', h'⟩ := h1 i (by simpa using hi)
            refine ⟨s', ?_⟩
            rw [show k + (i + 1) = k + 1 + i by omega]
            exact h'
        · intro i hi
          cases i with
          | zero => simpa using heq
          | succ i =>
            have := h2 i (by simpa using hi)
            cases i with
            | zero => simpa using this
            | succ i => simpa using this
    · rintro ⟨es, hl, h1, h2⟩
      cases es with
      | nil => simp at hl
      | cons e es =>
        obtain ⟨s, hs, hw, ht, hb⟩ := h1 0 (by simp)
        refine ⟨s, hs, e, ⟨hw, ht, hb⟩, ?_⟩
        simp only [List.getElem_cons_zero] at hw ht hb
        have h20 := h2 0 (by simp)
        simp only [List.getElem_cons_zero, if_true] at h20
        rw [if_neg (by simp [ht]), if_neg (by simpa using h20)]
        refine (ih _ _).mpr ⟨es, by simpa using hl, ?_, ?_⟩
        · intro i hi
          obtain ⟨s', h'⟩ := h1 (i + 1) (by simpa using hi)
          refine ⟨s', ?_⟩
          rw [show k + 1 + i = k + (i + 1) by omega]
          exact h'
        · intro i hi
          have := h2 (i + 1) (by simpa using hi)
          cases i with
          | zero => simpa using this
          | succ i => simpa using this

/-- C21: a chain that validates is readable at every position and every entry
carries the hash of its fields and its predecessor's hash. -/
theorem C21_validated_linked (P : Prims) (I : Ids) (db : DB) (domain : Str)
    (h : validate P I db domain = .ok ()) :
    ∃ es, Reads I db domain es ∧ Linked P es := by
  unfold validate at h
  split at h
  · contradiction
  · rename_i max hmax
    obtain ⟨_, h, -⟩ := Res.bind_eq_ok.mp h
    unfold positions at h
    rw [List.range_eq_range'] at h
    obtain ⟨es, hl, h1, h2⟩ := (validateLoop_ok P I db domain _ 0 _).mp h
    refine ⟨es, ⟨⟨max, hmax, hl⟩, ?_⟩, h2⟩
    intro i hi
    simpa using h1 i hi

/-- The other direction: if there are no own nyms with stored replies, every
readable and linked chain validates. -/
theorem C21_linked_validates (P : Prims) (I : Ids) (db : DB) (domain : Str) (es : List Util.Entry)
    (hp : db.privs = []) (hr : Reads I db domain es) (hl : Linked P es) :
    validate P I db domain = .ok () := by
  obtain ⟨⟨max, hmax, hlen⟩, hr⟩ := hr
  unfold validate
  rw [hmax]
  refine Res.bind_eq_ok.mpr ⟨(), ?_, ?_⟩
  · unfold positions
    rw [List.range_eq_range', validateLoop_ok]
    exact ⟨es, hlen, fun i hi => by simpa using hr i hi, hl⟩
  · have : privIdentities db = [] := by
      unfold privIdentities
      rw [hp]
      rfl
    rw [this]
    rfl

/-- Two chains exhibit a collision: two different byte strings hashed in them
have the same hash, or one of them hashes to 32 zero bytes, the start value. -/
def Collision (P : Prims) (es fs : List Util.Entry) : Prop :=
  (∃ i j, ∃ hi : i < es.length, ∃ hj : j < fs.length,
    linkBytes es i es[i] ≠ linkBytes fs j fs[j] ∧
    P.sha256 (linkBytes es i es[i]) = P.sha256 (linkBytes fs j fs[j])) ∨
  (∃ i, ∃ hi : i < es.length, P.sha256 (linkBytes es i es[i]) = List.replicate 32 0) ∨
  (∃ j, ∃ hj : j < fs.length, P.sha256 (linkBytes fs j fs[j]) = List.replicate 32 0)

theorem append_inj_len {a b c d : Bytes} (h : a ++ b = c ++ d) (hl : a.length = c.length) :
    a = c ∧ b = d := List.append_inj h hl

theorem linkBytes_inj {e f : Util.Entry} (he : e.Widths) (hf : f.Widths) {x y : Bytes}
    (h : e.typ ++ e.nonce ++ e.hashID ++ e.crUID ++ e.uidIndex ++ x =
      f.typ ++ f.nonce ++ f.hashID ++ f.crUID ++ f.uidIndex ++ y) :
    e.typ = f.typ ∧ e.nonce = f.nonce ∧ e.hashID = f.hashID ∧ e.crUID = f.crUID ∧
      e.uidIndex = f.uidIndex ∧ x = y := by
  obtain ⟨_, e2, e3, e4, e5, e6⟩ := he
  obtain ⟨_, f2, f3, f4, f5, f6⟩ := hf
  simp only [List.append_assoc] at h
  obtain ⟨h1, h⟩ := List.append_inj h (by omega)
  obtain ⟨h2, h⟩ := List.append_inj h (by omega)
  obtain ⟨h3, h⟩ := List.append_inj h (by omega)
  obtain ⟨h4, h⟩ := List.append_inj h (by omega)
  obtain ⟨h5, h⟩ := List.append_inj h (by omega)
  exact ⟨h1, h2, h3, h4, h5, h⟩

theorem tamper_aux (P : Prims) (es fs : List Util.Entry)
    (hes : ∀ e ∈ es, e.Widths) (hfs : ∀ e ∈ fs, e.Widths) (le : Linked P es) (lf : Linked P fs)
    (n m : Nat) (hn : n ≤ es.length) (hm : m ≤ fs.length)
    (heq : prevHash es n = prevHash fs m) :
    es.take n = fs.take m ∨ Collision P es fs := by
  induction n generalizing m with
  | zero =>
    cases m with
    | zero => left; rfl
    | succ m =>
      right; right; right
      refine ⟨m, hm, ?_⟩
      rw [← lf m hm]
      simp only [prevHash] at heq
      rw [if_pos trivial, if_neg (by omega)] at heq
      simp only [Nat.add_sub_cancel, List.getElem?_eq_getElem (show m < fs.length from hm),
        Option.map_some, Option.getD_some] at heq
      exact heq.symm
  | succ n ih =>
    cases m with
    | zero =>
      right; right; left
      refine ⟨n, hn, ?_⟩
      rw [← le n hn]
      simp only [prevHash] at heq
      rw [if_neg (by omega), if_pos trivial] at heq
      simp only [Nat.add_sub_cancel, List.getElem?_eq_getElem (show n < es.length from hn),
        Option.map_some, Option.getD_some] at heq
      exact heq
    | succ m =>
      simp only [prevHash] at heq
      rw [if_neg (by omega), if_neg (by omega)] at heq
      simp only [Nat.add_sub_cancel, List.getElem?_eq_getElem (show n < es.length from hn),
        List.getElem?_eq_getElem (show m < fs.length from hm), Option.map_some,
        Option.getD_some] at heq
      have hh : P.sha256 (linkBytes es n es[n]) = P.sha256 (linkBytes fs m fs[m]) := by
        rw [← le n hn, ← lf m hm, heq]
      by_cases hb : linkBytes es n es[n] = linkBytes fs m fs[m]
      · obtain ⟨h1, h2, h3, h4, h5, h6⟩ := linkBytes_inj (hes _ (List.getElem_mem _))
          (hfs _ (List.getElem_mem _)) hb
        rcases ih m (by omega) (by omega) h6 with h | h
        · left
          rw [List.take_succ_eq_append_getElem hn, List.take_succ_eq_append_getElem hm, h]
          congr 2
          cases hE : es[n]
          cases hF : fs[m]
          simp_all
        · exact .inr h
      · exact .inr (.inl ⟨n, m, hn, hm, hb, hh⟩)

theorem bytes_inj {e f : Util.Entry} (he : e.Widths) (hf : f.Widths) (h : e.bytes = f.bytes) : e = f := by
  obtain ⟨e1, e2, e3, e4, e5, e6⟩ := he
  obtain ⟨f1, f2, f3, f4, f5, f6⟩ := hf
  simp only [Util.Entry.bytes, List.append_assoc] at h
  obtain ⟨h1, h⟩ := List.append_inj h (by omega)
  obtain ⟨h2, h⟩ := List.append_inj h (by omega)
  obtain ⟨h3, h⟩ := List.append_inj h (by omega)
  obtain ⟨h4, h⟩ := List.append_inj h (by omega)
  obtain ⟨h5, h⟩ := List.append_inj h (by omega)
  cases e
  cases f
  simp_all

/-- What the engine reads is determined by the database. -/
theorem reads_unique {I : Ids} {db : DB} {domain : Str} {es fs : List Util.Entry}
    (he : Reads I db domain es) (hf : Reads I db domain fs) : es = fs := by
  obtain ⟨⟨m1, a1, l1⟩, he⟩ := he
  obtain ⟨⟨m2, a2, l2⟩, hf⟩ := hf
  rw [a1] at a2
  injection a2 with a2
  subst a2
  refine List.ext_getElem (by omega) fun i hi hj => ?_
  obtain ⟨s, b1, b2, _, b4⟩ := he i hi
  obtain ⟨t, c1, c2, _, c4⟩ := hf i hj
  rw [b1] at c1
  injection c1 with c1
  subst c1
  rw [b4] at c4
  injection c4 with c4
  exact bytes_inj b2 c2 c4

/-- C21: two hash chains (of any databases and domains) that both validate and
whose last entries carry the same hash are identical entry by entry; or the two
chains themselves contain a hash collision or a preimage of 32 zero bytes. -/
theorem C21_tamper_evident (P : Prims) (I : Ids) (db db' : DB) (domain domain' : Str)
    (h : validate P I db domain = .ok ()) (h' : validate P I db' domain' = .ok ())
    (es fs : List Util.Entry) (re : Reads I db domain es) (rf : Reads I db' domain' fs)
    (heq : es.getLast?.map (·.hash) = fs.getLast?.map (·.hash)) :
    es = fs ∨ Collision P es fs := by
  have le : Linked P es := by
    obtain ⟨es', re', le⟩ := C21_validated_linked P I db domain h
    rwa [reads_unique re re']
  have lf : Linked P fs := by
    obtain ⟨fs', rf', lf⟩ := C21_validated_linked P I db' domain' h'
    rwa [reads_unique rf rf']
  have we : ∀ e ∈ es, e.Widths := by
    intro e he
    obtain ⟨i, hi, rfl⟩ := List.mem_iff_getElem.mp he
    exact (re.2 i hi).choose_spec.2.1
  have wf : ∀ e ∈ fs, e.Widths := by
    intro e he
    obtain ⟨i, hi, rfl⟩ := List.mem_iff_getElem.mp he
    exact (rf.2 i hi).choose_spec.2.1
  obtain ⟨m1, _, l1⟩ := re.1
  obtain ⟨m2, _, l2⟩ := rf.1
  have := tamper_aux P es fs we wf le lf es.length fs.length (Nat.le_refl _) (Nat.le_refl _) (by
    simp only [prevHash]
    rw [if_neg (by omega), if_neg (by omega)]
    rw [List.getLast?_eq_getElem?, List.getLast?_eq_getElem?] at heq
    rw [heq])
  simpa using this

/-! ### C22 synchronisation -/

/-- The commands of the engine that the key server takes part in, and the ones on
own nyms, with everything the environment contributes. -/
inductive Op where
  | sync (domain : Str) (last : Option LastReply) (fetch : UInt64 → UInt64 → Option EntriesReply)
  | search (id : Str) (fetch : UInt64 → Bytes → Option Reply) (searchOnly : Bool)
  | lookup (id : Str) (fetch : UInt64 → Bytes → Option Reply)
      (positions : Option (List (Option UInt64)))
  | generate (id : Str) (later : UInt64) (r1 r2 : Option Bytes)
  | register (id : Str) (server : Message → Option Reply) (srvPub : Str)
  | genupdate (id : Str) (r : Option Bytes)
  | deleteUID (id : Str)
  | fetchKeyInit (id : Str) (server : Str → Option KeyInit)

/-- Executing a command; a panic leaves what was stored before it. -/
def step (P : Prims) (I : Ids) : Op → DB → DB × Res CErr Unit
  | .sync d l f, db => sync I d l f db
  | .search id f o, db => search P I f id o db
  | .lookup id f ps, db => lookup P I f id ps db
  | .generate id later r1 r2, db => generate P I id later r1 r2 db
  | .register id s p, db => registerOrUpdate P I id s p db
  | .genupdate id r, db => genupdate P I id r db
  | .deleteUID id, db => deleteUID P I id db
  | .fetchKeyInit id s, db => fetchKeyInit P I id s db

/-- A history of commands; a panic ends the program, which is started again. -/
def run (P : Prims) (I : Ids) (ops : List Op) (db : DB) : DB :=
  ops.foldl (fun db o => (step P I o db).1) db

theorem getEntry_insert {I : Ids} {db : DB} {domain : Str} {pos : UInt64} {s : Str}
    (row : ChainRow) (h : getEntry I db domain pos = .ok s) :
    getEntry I { db with chains := Sql.insert db.chains row } domain pos = .ok s := by
  unfold getEntry at *
  split at h
  · contradiction
  · rename_i hs
    rw [if_neg hs]
    simp only [Sql.first_insert]
    split at h
    · rename_i hf
      rw [hf]
      exact h
    · contradiction

theorem storeEntries_keeps {I : Ids} {d : Str} {last : UInt64} {domain : Str} {pos : UInt64} {s : Str}
    (es : List (Option Str)) (i : UInt64) (db : DB) (h : getEntry I db domain pos = .ok s) :
    getEntry I (storeEntries I d last es i db).1 domain pos = .ok s := by
  induction es generalizing i db with
  | nil => unfold storeEntries; split <;> exact h
  | cons e es ih =>
    unfold storeEntries
    split
    · exact h
    · cases e with
      | none => exact h
      | some e =>
        simp only [addEntry]
        split
        · exact h
        · rename_i db' hdb
          apply ih
          split at hdb
          · injection hdb with hdb
            subst hdb
            exact getEntry_insert _ h
          · contradiction

theorem sync_keeps {I : Ids} {d : Str} {l : Option LastReply}
    {f : UInt64 → UInt64 → Option EntriesReply} {domain : Str} {pos : UInt64} {s : Str} (db : DB)
    (h : getEntry I db domain pos = .ok s) : getEntry I (sync I d l f db).1 domain pos = .ok s := by
  unfold sync
  split
  · exact h
  · split
    · exact h
    · split
      · exact h
      · split
        · exact h
        · split
          · exact h
          · split
            · exact h
            · split
              · exact h
              · exact storeEntries_keeps _ _ _ h

/-- What a search stores for a matching entry: nothing, or one message that was
decrypted from the server's reply and passed all tests. -/
theorem matchEntry_cases (P : Prims) (f : UInt64 → Bytes → Option Reply) (mapped : Str) (db : DB)
    (i : UInt64) (e : Util.Entry) :
    (matchEntry P f mapped db i e).1 = db ∨
    ∃ r m uidHash, f i e.uidIndex = some r ∧
      Cipher.cbcDecrypt P.aes (P.sha256 ((ckdf P e.nonce).2 ++ mapped)) e.crUID = .ok uidHash ∧
      replyDecrypt P r uidHash = .ok (e.uidIndex, m) ∧ verifySelfSig P m = .ok () ∧
      verifyServerSig P db m r i = .ok () ∧
      (matchEntry P f mapped db i e).1 =
        { db with pubs := Sql.insert db.pubs ⟨m.content.identity, m.content.msgcount, i, m⟩ } := by
  unfold matchEntry
  split
  · exact .inl rfl
  · split
    · exact .inl rfl
    · split
      · exact .inl rfl
      · rename_i r hr
        split
        · rename_i uidHash hu
          split
          · rename_i index m hd
            split
            · exact .inl rfl
            · rename_i hidx
              split
              · rename_i hself
                split
                · rename_i hsrv
                  unfold addPub
                  split
                  · rename_i db' hdb
                    split at hdb
                    · injection hdb with hdb
                      subst hdb
                      refine .inr ⟨r, m, uidHash, hr, hu, ?_, hself, hsrv, rfl⟩
                      rw [hd, Decidable.not_not.mp hidx]
                    · contradiction
                  · exact .inl rfl
                · exact .inl rfl
                · exact .inl rfl
              · exact .inl rfl
              · exact .inl rfl
          · exact .inl rfl
          · exact .inl rfl
        · exact .inl rfl

/-- A search changes the database only by storing messages for matching entries:
a property kept by these steps is kept by the search. -/
theorem searchLoop_inv (P : Prims) (I : Ids) (f : UInt64 → Bytes → Option Reply) (domain mapped : Str)
    (so : Bool) (Q : DB → Prop)
    (hQ : ∀ db i e, Q db → Q (matchEntry P f mapped db i e).1) (is : List UInt64) (found : Bool)
    (db : DB) (h : Q db) : Q (searchLoop P I f domain mapped so is found db).1 := by
  induction is generalizing found db with
  | nil => exact h
  | cons i is ih =>
    unfold searchLoop
    split
    · exact h
    · exact h
    · split
      · exact h
      · exact h
      · split
        · exact h
        · split
          · exact ih _ _ h
          · split
            · exact h
            · rename_i e _ _ _ _
              have := hQ db i e h
              split
              · rename_i heq; rw [heq] at this; exact ih _ _ this
              · rename_i heq; rw [heq] at this; exact this
              · rename_i heq; rw [heq] at this; exact this

theorem lookupLoop_inv (P : Prims) (I : Ids) (f : UInt64 → Bytes → Option Reply) (domain mapped : Str)
    (Q : DB → Prop)
    (hQ : ∀ db i e, Q db → Q (matchEntry P f mapped db i e).1) (is : List (Option UInt64))
    (found : Bool) (db : DB) (h : Q db) : Q (lookupLoop P I f domain mapped is found db).1 := by
  induction is generalizing found db with
  | nil => exact h
  | cons i is ih =>
    cases i with
    | none => exact h
    | some i =>
      unfold lookupLoop
      split
      · exact h
      · exact h
      · split
        · exact h
        · exact h
        · split
          · exact h
          · split
            · exact h
            · rename_i e _ _ _
              have := hQ db i e h
              split
              · rename_i heq; rw [heq] at this; exact ih _ _ this
              · rename_i heq; rw [heq] at this; exact this
              · rename_i heq; rw [heq] at this; exact this

/-- The other commands store or delete own nyms or KeyInit messages only. -/
theorem step_inv (P : Prims) (I : Ids) (Q : DB → Prop)
    (hm : ∀ f mapped db i e, Q db → Q (matchEntry P f mapped db i e).1)
    (hs : ∀ d l f db, Q db → Q (sync I d l f db).1)
    (ho : ∀ db privs, Q db → Q { db with privs := privs })
    (hk : ∀ db ki, Q db → Q (addKi db ki)) (o : Op) (db : DB) (h : Q db) :
    Q (step P I o db).1 := by
  have ho' : ∀ privs, Q { db with privs := privs } := fun privs => ho db privs h
  cases o with
  | sync d l f => exact hs d l f db h
  | search id f so =>
    show Q (search P I f id so db).1
    unfold search
    split
    · exact h
    · rename_i mapped domain _
      split
      · exact h
      · rename_i max _
        have := searchLoop_inv P I f domain mapped so Q (hm f mapped) (positions max) false db h
        split <;> (rename_i heq; rw [heq] at this; exact this)
  | lookup id f ps =>
    show Q (lookup P I f id ps db).1
    unfold lookup
    split
    · exact h
    · rename_i mapped domain _
      split
      · exact h
      · rename_i ps'
        have := lookupLoop_inv P I f domain mapped Q (hm f mapped) ps' false db h
        split <;> (rename_i heq; rw [heq] at this; exact this)
  | generate id later r1 r2 =>
    show Q (generate P I id later r1 r2 db).1
    unfold generate addPriv
    split
    · exact h
    · split
      · exact h
      · split
        · split
          · split
            · rename_i heq
              split at heq
              · injection heq with heq; subst heq; exact ho' _
              · contradiction
            · exact h
          · exact h
          · exact h
        · exact h
        · exact h
  | register id s p =>
    show Q (registerOrUpdate P I id s p db).1
    unfold registerOrUpdate addPrivReply
    split
    · exact h
    · split
      · exact h
      · exact h
      · exact h
      · split
        · exact h
        · exact ho' _
  | genupdate id r =>
    show Q (genupdate P I id r db).1
    unfold genupdate addPriv
    split
    · exact h
    · split
      · exact h
      · exact h
      · split
        · exact h
        · exact h
        · split
          · rename_i heq
            split at heq
            · injection heq with heq; subst heq; exact ho' _
            · contradiction
          · exact h
  | deleteUID id =>
    show Q (deleteUID P I id db).1
    unfold deleteUID delPriv
    split
    · exact h
    · split
      · exact h
      · exact h
      · exact ho' _
  | fetchKeyInit id s =>
    show Q (fetchKeyInit P I id s db).1
    unfold fetchKeyInit
    split
    · exact h
    · split
      · exact h
      · split
        · exact h
        · exact h
        · split
          · exact h
          · exact hk _ _ h

/-- C22: whatever key servers reply to any sequence of commands, in particular
of syncs, and wherever one of them fails, every position of every hash chain
that could be read before still reads the same. -/
theorem C22_history_kept (P : Prims) (I : Ids) (ops : List Op) (db : DB) (domain : Str) (pos : UInt64)
    (s : Str) (h : getEntry I db domain pos = .ok s) :
    getEntry I (run P I ops db) domain pos = .ok s := by
  induction ops generalizing db with
  | nil => exact h
  | cons o ops ih =>
    refine ih _ ?_
    refine step_inv P I (fun db => getEntry I db domain pos = .ok s) ?_ ?_ ?_ ?_ o db h
    · intro f mapped db i e h
      rcases matchEntry_cases P f mapped db i e with hc | ⟨_, _, _, _, _, _, _, _, hc⟩
      · rw [hc]; exact h
      · rw [hc]; exact h
    · intro d l f db h
      exact sync_keeps db h
    · intro db _ h
      exact h
    · intro db _ h
      exact h

/-! ### C70 synchronisation with an honest server -/

/-- The local hash chain of a domain consists of exactly these entries. -/
def Local (I : Ids) (db : DB) (domain : Str) (cs : List Str) : Prop :=
  lastPos I db domain = (if cs.length = 0 then none else some (UInt64.ofNat (cs.length - 1))) ∧
  ∀ i, ∀ h : i < cs.length, getEntry I db domain (UInt64.ofNat i) = .ok cs[i]

/-- What a server with the chain `cs` answers. -/
def honestLast (cs : List Str) : Option LastReply :=
  some ⟨cs.getLast?, some (UInt64.ofNat (cs.length - 1))⟩

def honestFetch (cs : List Str) (first last : UInt64) : Option EntriesReply :=
  some ⟨some (((cs.drop first.toNat).take (last.toNat + 1 - first.toNat)).map some), some first⟩

theorem ofNat_toNat {n : Nat} (h : n < 2 ^ 63) : (UInt64.ofNat n).toNat = n := by
  rw [UInt64.toNat_ofNat']
  omega

theorem sqlInt_ofNat {n : Nat} (h : n < 2 ^ 63) : sqlInt (UInt64.ofNat n) = true := by
  unfold sqlInt
  rw [ofNat_toNat h]
  exact decide_eq_true h

theorem local_rows {I : Ids} {db : DB} {domain : Str} {cs : List Str} (hl : cs.length < 2 ^ 63)
    (h : lastPos I db domain = (if cs.length = 0 then none else some (UInt64.ofNat (cs.length - 1)))) :
    ∀ r ∈ Sql.vals db.chains, r.domain = I.mapDomain domain → r.pos.toNat < cs.length := by
  intro r hr hd
  unfold lastPos at h
  split at h
  · have := top_none _ _ (Option.map_eq_none_iff.mp h) r hr
    simp [hd] at this
  · obtain ⟨b, hb, hb'⟩ := Option.map_eq_some_iff.mp h
    have := (top_some _ _ hb).2.2 r hr (by simp [hd])
    rw [hb', UInt64.le_iff_toNat_le, ofNat_toNat (by omega)] at this
    omega

theorem local_add {I : Ids} {db : DB} {domain : Str} {cs : List Str} (e : Str)
    (hl : cs.length < 2 ^ 63) (h : Local I db domain cs) :
    ∃ db', addEntry I db domain (UInt64.ofNat cs.length) e = some db' ∧
      Local I db' domain (cs ++ [e]) ∧ db'.pubs = db.pubs ∧ db'.privs = db.privs ∧
      db'.kis = db.kis := by
  have hrows := local_rows hl h.1
  unfold addEntry
  rw [if_pos (sqlInt_ofNat hl)]
  refine ⟨_, rfl, ⟨?_, ?_⟩, rfl, rfl, rfl⟩
  · have h1 := h.1
    unfold lastPos at h1 ⊢
    simp only [top_insert]
    rw [List.length_append, if_neg (by simp)]
    simp only [List.length_cons, List.length_nil, Nat.zero_add, Nat.add_sub_cancel]
    unfold topStep
    simp only [decide_true, if_true]
    split
    · rfl
    · rename_i b hb
      obtain ⟨hb1, hb2, -⟩ := top_some _ _ hb
      have := hrows b hb1 (by simpa using hb2)
      rw [if_pos]
      · rfl
      · rw [UInt64.lt_iff_toNat_lt, ofNat_toNat hl]
        exact this
  · intro i hi
    by_cases hc : i < cs.length
    · rw [List.getElem_append_left hc]
      exact getEntry_insert _ (h.2 i hc)
    · have hi' : i = cs.length := by
        rw [List.length_append] at hi
        simp only [List.length_cons, List.length_nil] at hi
        omega
      subst hi'
      unfold getEntry
      rw [sqlInt_ofNat hl]
      simp only [Bool.true_eq_false, if_false, Sql.first_insert]
      have : Sql.first (fun r : ChainRow => r.domain = I.mapDomain domain && r.pos = UInt64.ofNat cs.length)
          db.chains = none := by
        apply Option.map_eq_none_iff.mp
        · rw [Sql.first_vals, List.find?_eq_none]
          intro r hr hp
          simp only [Bool.and_eq_true, decide_eq_true_eq] at hp
          have := hrows r hr hp.1
          rw [hp.2, ofNat_toNat hl] at this
          omega
      rw [this]
      simp

theorem store_honest {I : Ids} {domain : Str} (rest : List Str) : ∀ (db : DB) (cs : List Str)
    (n : Nat), n = cs.length + rest.length → n ≤ 2 ^ 63 → 0 < n → Local I db domain cs →
    ∃ db', storeEntries I domain (UInt64.ofNat (n - 1)) (rest.map some) (UInt64.ofNat cs.length) db =
        (db', .ok ()) ∧
      Local I db' domain (cs ++ rest) ∧ db'.pubs = db.pubs ∧ db'.privs = db.privs ∧
      db'.kis = db.kis := by
  induction rest with
  | nil =>
    intro db cs n hn hlen h0 h
    refine ⟨db, ?_, by simpa using h, rfl, rfl, rfl⟩
    unfold storeEntries
    rw [if_pos]
    simp only [List.length_nil, Nat.add_zero] at hn
    rw [UInt64.lt_iff_toNat_lt, ofNat_toNat (by omega), UInt64.toNat_ofNat']
    omega
  | cons e rest ih =>
    intro db cs n hn hlen h0 h
    simp only [List.length_cons] at hn
    obtain ⟨db1, h1, h2, h3, h4, h5⟩ := local_add e (by omega) h
    obtain ⟨db2, g1, g2, g3, g4, g5⟩ := ih db1 (cs ++ [e]) n (by simp; omega) hlen h0 h2
    refine ⟨db2, ?_, by simpa using g2, by rw [g3, h3], by rw [g4, h4], by rw [g5, h5]⟩
    rw [List.map_cons]
    unfold storeEntries
    rw [if_neg]
    · simp only [h1]
      rw [← g1]
      congr 1
      simp only [List.length_append, List.length_cons, List.length_nil, UInt64.ofNat_add]
      rfl
    · rw [UInt64.lt_iff_toNat_lt, ofNat_toNat (by omega), ofNat_toNat (by omega)]
      omega

/-- C70: a sync with a server that answers from its chain makes a local chain
that is a (possibly empty) prefix of the server's chain equal to it. -/
theorem C70_sync_completes (I : Ids) (db : DB) (domain : Str) (pre rest : List Str)
    (hne : pre ++ rest ≠ []) (hlen : (pre ++ rest).length ≤ 2 ^ 63) (h : Local I db domain pre) :
    (sync I domain (honestLast (pre ++ rest)) (honestFetch (pre ++ rest)) db).2 = .ok () ∧
    Local I (sync I domain (honestLast (pre ++ rest)) (honestFetch (pre ++ rest)) db).1 domain
      (pre ++ rest) ∧
    (sync I domain (honestLast (pre ++ rest)) (honestFetch (pre ++ rest)) db).1.pubs = db.pubs ∧
    (sync I domain (honestLast (pre ++ rest)) (honestFetch (pre ++ rest)) db).1.privs = db.privs := by
  have hpos : 0 < (pre ++ rest).length := List.length_pos_iff.mpr hne
  have hll : (pre ++ rest).length = pre.length + rest.length := List.length_append
  obtain ⟨l, hl⟩ : ∃ l, (pre ++ rest).getLast? = some l := by
    cases hg : (pre ++ rest).getLast? with
    | some l => exact ⟨l, rfl⟩
    | none => exact absurd (List.getLast?_eq_none_iff.mp hg) hne
  unfold sync honestLast
  simp only [hl]
  by_cases hr : rest = []
  · have : inSync (lastPos I db domain) (UInt64.ofNat ((pre ++ rest).length - 1)) = true := by
      subst hr
      rw [List.append_nil] at *
      rw [h.1, if_neg (by omega)]
      simp only [inSync, decide_eq_true_eq]
      exact UInt64.le_refl _
    rw [if_pos this]
    subst hr
    rw [List.append_nil]
    exact ⟨rfl, h, rfl, rfl⟩
  · have hrl : 0 < rest.length := List.length_pos_iff.mpr hr
    have hs : startPos (lastPos I db domain) = UInt64.ofNat pre.length := by
      rw [h.1]
      split
      · rename_i h0
        rw [h0]
        rfl
      · simp only [startPos]
        rw [show pre.length = (pre.length - 1) + 1 by omega, UInt64.ofNat_add]
        rfl
    have : inSync (lastPos I db domain) (UInt64.ofNat ((pre ++ rest).length - 1)) = false := by
      rw [h.1]
      split
      · rfl
      · simp only [inSync, decide_eq_false_iff_not, UInt64.le_iff_toNat_le]
        rw [ofNat_toNat (by omega), ofNat_toNat (by omega)]
        omega
    rw [this, hs]
    simp only [Bool.false_eq_true, if_false, honestFetch]
    rw [ofNat_toNat (by omega), ofNat_toNat (by omega), List.drop_left' rfl, hll]
    rw [show pre.length + rest.length - 1 + 1 - pre.length = rest.length by omega, List.take_length]
    obtain ⟨db', g1, g2, g3, g4, -⟩ := store_honest rest db pre _ rfl (by omega) (by omega) h
    rw [g1]
    exact ⟨rfl, g2, g3, g4⟩

/-! ### C23 the UID messages that enter the database -/

/-- `r` is the row the key server key is taken from: the one of this identity with
the highest position up to `pos`, among the rows stored so far. -/
def Current (rows : List PubRow) (identity : Str) (pos : UInt64) (r : PubRow) : Prop :=
  r ∈ rows ∧ r.identity = identity ∧ r.pos ≤ pos ∧
    ∀ o ∈ rows, o.identity = identity → o.pos ≤ pos → o.pos ≤ r.pos

/-- A stored UID message carries a valid self signature, and came in a reply that
carries its index and is signed with the key of the key server of its domain that
was current when it was stored; the first message of a key server needs no
server signature. -/
def Vouched (P : Prims) (earlier : List PubRow) (r : PubRow) : Prop :=
  r.identity = r.msg.content.identity ∧ r.msgcount = r.msg.content.msgcount ∧
  SignedBy P r.msg.content.sigkey.pubkey (P.contentJSON r.msg.content) r.msg.selfSig ∧
  ∃ lp domain, r.identity = lp ++ 64 :: domain ∧ 64 ∉ lp ∧ 64 ∉ domain ∧
    ((lp = lit "keyserver" ∧ r.msgcount = 0) ∨
      ∃ (reply : Reply) (srv : PubRow) (raw : Bytes), Current earlier (lit "keyserver@" ++ domain) r.pos srv ∧
        SignedBy P srv.msg.content.sigkey.pubkey (P.entryJSON reply.entry) reply.serverSig ∧
        Base64.decode reply.entry.uidMessageEncrypted = some raw ∧
        raw.take 32 = P.sha256 (P.sha256 (P.msgJSON r.msg)))

theorem count_takeWhile (id : Str) (h : (id.filter (· = 64)).length = 1) :
    id = id.takeWhile (· ≠ 64) ++ 64 :: (id.dropWhile (· ≠ 64)).tail ∧
      64 ∉ (id.dropWhile (· ≠ 64)).tail := by
  induction id with
  | nil => simp at h
  | cons c cs ih =>
    by_cases hc : c = 64
    · subst hc
      simp only [List.filter_cons, decide_true, if_true, List.length_cons] at h
      have hf : cs.filter (· = 64) = [] := List.length_eq_zero_iff.mp (by omega)
      refine ⟨by simp, ?_⟩
      simp only [ne_eq, not_true, decide_false, List.dropWhile_cons, Bool.false_eq_true, if_false,
        List.tail_cons]
      intro hm
      have := List.filter_eq_nil_iff.mp hf 64 hm
      simp at this
    · have h' : (cs.filter (· = 64)).length = 1 := by simpa [List.filter_cons, hc] using h
      obtain ⟨h1, h2⟩ := ih h'
      simp only [List.takeWhile_cons, List.dropWhile_cons, ne_eq, hc, not_false_iff, decide_true,
        if_true]
      exact ⟨by rw [List.cons_append]; exact congrArg _ h1, h2⟩

theorem splitId_some {id lp d : Str} (h : splitId id = some (lp, d)) :
    id = lp ++ 64 :: d ∧ 64 ∉ lp ∧ 64 ∉ d := by
  unfold splitId at h
  split at h
  · rename_i hc
    injection h with h
    obtain ⟨rfl, rfl⟩ := Prod.mk.inj h
    obtain ⟨h1, h2⟩ := count_takeWhile id hc
    refine ⟨h1, ?_, h2⟩
    intro hm
    have := List.all_eq_true.mp List.all_takeWhile 64 hm
    simp at this
  · contradiction

theorem getPub_current {db : DB} {id : Str} {pos p : UInt64} {m : Message}
    (h : getPub db id pos = some (m, p)) :
    ∃ r, Current (Sql.vals db.pubs) id pos r ∧ r.msg = m ∧ r.pos = p := by
  unfold getPub at h
  obtain ⟨r, hr, he⟩ := Option.map_eq_some_iff.mp h
  obtain ⟨rfl, rfl⟩ := Prod.mk.inj he
  obtain ⟨h1, h2, h3⟩ := top_some _ _ hr
  simp only [Bool.and_eq_true, decide_eq_true_eq] at h2 h3
  exact ⟨r, ⟨h1, h2.1, h2.2, fun o ho hi hp => h3 o ho ⟨hi, hp⟩⟩, rfl, rfl⟩

theorem verifyServerSig_ok {P : Prims} {db : DB} {m : Message} {r : Reply} {i : UInt64}
    (h : verifyServerSig P db m r i = .ok ()) :
    ∃ lp domain, splitId m.content.identity = some (lp, domain) ∧
      ((lp = lit "keyserver" ∧ m.content.msgcount = 0) ∨
       ∃ srv p, getPub db (lit "keyserver@" ++ domain) i = some (srv, p) ∧
        verifySrvSig P r m srv.content.sigkey.pubkey = .ok ()) := by
  unfold verifyServerSig at h
  split at h
  · contradiction
  · rename_i lp domain hsp
    refine ⟨lp, domain, hsp, ?_⟩
    split at h
    · exact .inl (by assumption)
    · split at h
      · contradiction
      · split at h
        · contradiction
        · rename_i srv p hg
          refine .inr ⟨srv, p, hg, ?_⟩
          revert h
          cases verifySrvSig P r m srv.content.sigkey.pubkey <;> simp [ofUid]

/-- C23, partial: starting with an empty database, after any sequence of commands
with any behaviour of the key servers, every stored UID message is vouched for by
the messages stored before it. Missing: that its identity is the one that was
searched for (`C23_foreign_identity_stored`). -/
theorem C23_stored_vouched_partial (P : Prims) (I : Ids) (ops : List Op) (db : DB) (h0 : db.pubs = [])
    (n : Nat) (r : PubRow) (h : (Sql.vals (run P I ops db).pubs)[n]? = some r) :
    Vouched P ((Sql.vals (run P I ops db).pubs).take n) r := by
  suffices H : ∀ db, (∀ n r, (Sql.vals db.pubs)[n]? = some r → Vouched P ((Sql.vals db.pubs).take n) r) →
      ∀ n r, (Sql.vals (run P I ops db).pubs)[n]? = some r →
        Vouched P ((Sql.vals (run P I ops db).pubs).take n) r by
    refine H db ?_ n r h
    intro n r hr
    rw [h0] at hr
    simp [Sql.vals] at hr
  clear h h0
  induction ops with
  | nil => exact fun _ h => h
  | cons o ops ih =>
    intro db hdb
    refine ih _ ?_
    refine step_inv P I (fun db => ∀ n r, (Sql.vals db.pubs)[n]? = some r →
      Vouched P ((Sql.vals db.pubs).take n) r) ?_ ?_ ?_ ?_ o db hdb
    · intro f mapped db i e h
      rcases matchEntry_cases P f mapped db i e with hc | ⟨rep, m, uh, _, hcbc, hdec, hself, hsrv, hc⟩
      · rw [hc]; exact h
      · rw [hc]
        intro n r hr
        simp only [Sql.vals_insert] at hr ⊢
        by_cases hn : n < (Sql.vals db.pubs).length
        · rw [List.getElem?_append_left hn] at hr
          rw [List.take_append_of_le_length (by omega)]
          exact h n r hr
        · have hn' : n = (Sql.vals db.pubs).length := by
            have := (List.getElem?_eq_some_iff.mp hr).1
            simp at this
            omega
          subst hn'
          simp only [List.getElem?_concat_length, Option.some.injEq] at hr
          rw [List.take_left' rfl]
          subst hr
          refine ⟨rfl, rfl, verifySelfSig_iff.mp hself, ?_⟩
          obtain ⟨lp, domain, hsp, hv⟩ := verifyServerSig_ok hsrv
          obtain ⟨s1, s2, s3⟩ := splitId_some hsp
          refine ⟨lp, domain, s1, s2, s3, ?_⟩
          rcases hv with hv | ⟨srv, p, hg, hv⟩
          · exact .inl hv
          · obtain ⟨row, hcur, hm, -⟩ := getPub_current hg
            obtain ⟨⟨raw, hr1, hr2⟩, -, hs⟩ := C17_reply_index_partial P rep m _ hv
            exact .inr ⟨rep, row, raw, hcur, by rw [hm]; exact hs, hr1, hr2⟩
    · intro d l f db h
      have : (sync I d l f db).1.pubs = db.pubs := by
        have hst : ∀ last es i db, (storeEntries I d last es i db).1.pubs = db.pubs := by
          intro last es
          induction es with
          | nil => intro i db; unfold storeEntries; split <;> rfl
          | cons e es ih =>
            intro i db
            unfold storeEntries
            split
            · rfl
            · cases e with
              | none => rfl
              | some e =>
                simp only [addEntry]
                split
                · rfl
                · rename_i heq
                  rw [ih]
                  split at heq
                  · injection heq with heq; subst heq; rfl
                  · contradiction
        unfold sync
        split
        · rfl
        · split
          · rfl
          · split
            · rfl
            · split
              · rfl
              · split
                · rfl
                · split
                  · rfl
                  · split
                    · rfl
                    · exact hst _ _ _ _
      rw [this]
      exact h
    · intro db _ h
      exact h
    · intro db _ h
      exact h

end Verif.Crypt

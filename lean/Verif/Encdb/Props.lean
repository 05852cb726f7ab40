/-
C52 (re-keying keeps the database key), C53 (crashes during re-keying) and C67
(interrupted creation).
-/
import Verif.Encdb.Model
import Verif.Wire.Props

namespace Verif.Encdb
open Verif.Cipher

/-- One call of `Rekey` with its random values. -/
structure Rekey where
  oldPass : Bytes
  newPass : Bytes
  iter : Int
  salt : Bytes
  iv : Bytes

/-- The random values have the sizes the code asks for. -/
def Rekey.OK (o : Rekey) : Prop := o.salt.length = 32 ∧ o.iv.length = 16

/-- Run one call to completion. -/
def Rekey.run (P : Prims) (f dbKey : Bytes) (fs : FS) (o : Rekey) : FS × Res Err Unit :=
  let r := rekey P fs f dbKey o.oldPass o.newPass o.iter o.salt o.iv
  (applyAll fs r.1, r.2)

/-- Run a history of calls, remembering the passphrase of the last call that
succeeded. -/
def runHistory (P : Prims) (f dbKey : Bytes) : FS → Bytes → List Rekey → FS × Bytes
  | fs, pass, [] => (fs, pass)
  | fs, pass, o :: os =>
    match o.run P f dbKey fs with
    | (fs', .ok ()) => runHistory P f dbKey fs' o.newPass os
    | (fs', _) => runHistory P f dbKey fs' pass os

/-! ### Lemmas -/

theorem upd_same (fs : FS) (f : Bytes) (v : Option Bytes) : upd fs f v f = v := by simp [upd]

theorem upd_other {fs : FS} {f g : Bytes} {v : Option Bytes} (h : g ≠ f) : upd fs f v g = fs g := by
  simp [upd, h]

theorem tmp_ne (f : Bytes) : f ≠ f ++ newSuffix := by
  intro h
  have := congrArg List.length h
  simp [newSuffix] at this

theorem applyAll_append (fs : FS) (a b : List Step) :
    applyAll fs (a ++ b) = applyAll (applyAll fs a) b := by
  simp [applyAll]

theorem apply_fine (fs : FS) (f d : Bytes) (h : (fs f).isSome) :
    applyAll fs (fine (.append f d)) = apply fs (.append f d) := by
  induction d generalizing fs with
  | nil =>
    funext g
    obtain ⟨c, hc⟩ := Option.isSome_iff_exists.mp h
    by_cases hg : g = f
    · subst hg; simp [fine, applyAll, apply, upd, hc]
    · simp [fine, applyAll, apply, upd, hg]
  | cons b d ih =>
    have := ih (apply fs (.append f [b])) (by simp [apply, upd])
    show applyAll (apply fs (.append f [b])) (fine (.append f d)) = _
    rw [this]
    funext g
    by_cases hg : g = f
    · subst hg; simp [apply, upd]
    · simp [apply, upd, hg]

/-- The file a complete `writeKeyfile` produces. -/
def keyfileBytes (P : Prims) (pass : Bytes) (iter : Int) (key salt iv : Bytes) : Bytes :=
  Wire.toByte8 (UInt64.ofNat iter.toNat) ++ salt ++
    (iv ++ cbcEncBlocks P.block (P.kdf pass salt iter.toNat) iv key)

theorem writeKeyfile_spec (P : Prims) (hP : P.Good) (fs : FS) (f pass : Bytes) (iter : Int)
    (key salt iv : Bytes) (hiv : iv.length = 16) :
    (writeKeyfile P fs f pass iter key salt iv).2 ≠ .panic ∧
    ((writeKeyfile P fs f pass iter key salt iv).2 = .ok () ↔
      (fs f).isSome = false ∧ 0 ≤ iter ∧ iter ≤ 2147483647 ∧ key.length = 32) ∧
    ((writeKeyfile P fs f pass iter key salt iv).2 = .ok () →
      (writeKeyfile P fs f pass iter key salt iv).1 = [.create f,
        .append f (Wire.toByte8 (UInt64.ofNat iter.toNat)), .append f salt,
        .append f (iv ++ cbcEncBlocks P.block (P.kdf pass salt iter.toNat) iv key)]) ∧
    ((writeKeyfile P fs f pass iter key salt iv).2 ≠ .ok () →
      (writeKeyfile P fs f pass iter key salt iv).1 = []) := by
  unfold writeKeyfile
  by_cases h1 : (fs f).isSome
  · simp [h1]
  · rw [if_neg h1]
    by_cases h2 : iter < 0 ∨ iter > 2147483647
    · rw [if_pos h2]
      refine ⟨by simp, ⟨by simp, fun h => ?_⟩, by simp, by simp⟩
      omega
    · rw [if_neg h2]
      by_cases h3 : key.length ≠ 32
      · rw [if_pos h3]
        refine ⟨by simp, ⟨by simp, fun h => absurd h.2.2.2 h3⟩, by simp, by simp⟩
      · rw [if_neg h3]
        have h3 : key.length = 32 := by omega
        have hc : cbcEncrypt P.block (P.kdf pass salt iter.toNat) key iv =
            .ok (iv ++ cbcEncBlocks P.block (P.kdf pass salt iter.toNat) iv key) := by
          unfold cbcEncrypt
          rw [if_neg (by rw [hP.kdf_len]; omega), if_neg (by omega)]
        simp only [hc]
        refine ⟨by simp, ⟨fun _ => ⟨by simpa using h1, by omega, by omega, h3⟩, fun _ => trivial⟩,
          fun _ => trivial, fun h => absurd rfl h⟩

theorem write_content (P : Prims) (fs : FS) (f pass : Bytes) (iter : Int) (key salt iv : Bytes) :
    applyAll fs [.create f, .append f (Wire.toByte8 (UInt64.ofNat iter.toNat)), .append f salt,
      .append f (iv ++ cbcEncBlocks P.block (P.kdf pass salt iter.toNat) iv key)] =
    upd fs f (some (keyfileBytes P pass iter key salt iv)) := by
  funext g
  by_cases hg : g = f
  · subst hg; simp [applyAll, apply, upd, keyfileBytes]
  · simp [applyAll, apply, upd, hg]

theorem toByte8_length (u : UInt64) : (Wire.toByte8 u).length = 8 := rfl

theorem readBuf_append {n : Nat} {a r : Bytes} (h : a.length = n) (hn : 0 < n) :
    readBuf n (a ++ r) = some (a, r) := by
  unfold readBuf
  rw [if_neg (by intro h0; rw [(List.append_eq_nil_iff.mp h0).1] at h; simp at h; omega)]
  rw [List.take_left' h, List.drop_left' h, show n - (a ++ r).length = 0 by
    rw [List.length_append]; omega]
  simp

/-- Reading a complete key file with its passphrase returns the key. -/
theorem readKeyfile_ok (P : Prims) (hP : P.Good) (fs : FS) (f pass : Bytes) (iter : Int)
    (key salt iv : Bytes) (hk : key.length = 32) (hs : salt.length = 32) (hiv : iv.length = 16)
    (h0 : 0 ≤ iter) (h1 : iter ≤ 2147483647)
    (hf : fs f = some (keyfileBytes P pass iter key salt iv)) :
    readKeyfile P fs f pass = .ok key := by
  obtain ⟨hd, hl⟩ := cbcDec_cbcEnc P.block hP.block (P.kdf pass salt iter.toNat) iv key hiv (by omega)
  unfold readKeyfile
  rw [hf]
  simp only [keyfileBytes]
  rw [List.append_assoc, readBuf_append (toByte8_length _) (by decide)]
  dsimp only
  have hu : (UInt64.ofNat iter.toNat).toNat = iter.toNat := by
    simp only [UInt64.toNat_ofNat']; omega
  rw [show Wire.toUint64 (Wire.toByte8 (UInt64.ofNat iter.toNat)) = .ok (UInt64.ofNat iter.toNat)
    from (Wire.C03_decode_encode (UInt64.ofNat iter.toNat) 0 0).1]
  dsimp only
  rw [if_neg (by
    intro h
    have := UInt64.lt_iff_toNat_lt.mp h
    rw [hu] at this
    have : (2147483647 : Nat) < iter.toNat := this
    omega)]
  rw [readBuf_append hs (by decide)]
  dsimp only
  have : readBuf 48 (iv ++ cbcEncBlocks P.block (P.kdf pass salt iter.toNat) iv key) =
      some (iv ++ cbcEncBlocks P.block (P.kdf pass salt iter.toNat) iv key, []) := by
    have := readBuf_append (n := 48) (r := [])
      (a := iv ++ cbcEncBlocks P.block (P.kdf pass salt iter.toNat) iv key)
      (by rw [List.length_append, hl]; omega) (by decide)
    simpa using this
  rw [this, hu]
  dsimp only
  have hc : cbcDecrypt P.block (P.kdf pass salt iter.toNat)
      (iv ++ cbcEncBlocks P.block (P.kdf pass salt iter.toNat) iv key) = .ok key := by
    unfold cbcDecrypt
    rw [if_neg (by rw [hP.kdf_len]; omega), if_neg (by rw [List.length_append]; omega),
      List.drop_left' hiv, if_neg (by omega), List.take_left' hiv, hd]
  rw [hc]

/-- What a successful or failing `Rekey` does to the file system. -/
theorem rekey_spec (P : Prims) (hP : P.Good) (f dbKey : Bytes) (fs : FS) (o : Rekey) (ho : o.OK) :
    let r := rekey P fs f dbKey o.oldPass o.newPass o.iter o.salt o.iv
    (r.2 = .ok () →
      openDB P fs f dbKey o.oldPass = .ok () ∧ dbKey.length = 32 ∧ 0 ≤ o.iter ∧
      o.iter ≤ 2147483647 ∧
      r.1 = .remove (f ++ newSuffix) :: [.create (f ++ newSuffix),
        .append (f ++ newSuffix) (Wire.toByte8 (UInt64.ofNat o.iter.toNat)),
        .append (f ++ newSuffix) o.salt,
        .append (f ++ newSuffix) (o.iv ++ cbcEncBlocks P.block
          (P.kdf o.newPass o.salt o.iter.toNat) o.iv dbKey)] ++ [.rename (f ++ newSuffix) f]) ∧
    (r.2 ≠ .ok () → r.1 = [] ∨ r.1 = [.remove (f ++ newSuffix)]) ∧
    (openDB P fs f dbKey o.oldPass = .ok () → dbKey.length = 32 → 0 ≤ o.iter →
      o.iter ≤ 2147483647 → r.2 = .ok ()) := by
  unfold rekey
  cases hopen : openDB P fs f dbKey o.oldPass with
  | panic => simp
  | err e => simp
  | ok u =>
    obtain rfl : u = () := rfl
    have hread : readKeyfile P fs f o.oldPass = .ok dbKey := by
      unfold openDB at hopen
      cases hr : readKeyfile P fs f o.oldPass with
      | panic => rw [hr] at hopen; cases hopen
      | err e => rw [hr] at hopen; cases hopen
      | ok k =>
        rw [hr] at hopen
        dsimp only at hopen
        split at hopen
        · rename_i hk; rw [hk]
        · cases hopen
    simp only [replaceKeyfile, hread]
    obtain ⟨w0, w1, w2, w3⟩ := writeKeyfile_spec P hP (apply fs (.remove (f ++ newSuffix)))
      (f ++ newSuffix) o.newPass o.iter dbKey o.salt o.iv ho.2
    generalize writeKeyfile P (apply fs (.remove (f ++ newSuffix))) (f ++ newSuffix) o.newPass o.iter
      dbKey o.salt o.iv = w at *
    obtain ⟨ws, wr⟩ := w
    have hfree : (apply fs (.remove (f ++ newSuffix)) (f ++ newSuffix)).isSome = false := by
      simp [apply, upd]
    simp only at w0 w1 w2 w3
    cases wr with
    | panic => exact absurd rfl w0
    | err e =>
      refine ⟨by simp, fun _ => Or.inr ?_, ?_⟩
      · simp [w3 (by simp)]
      · intro _ hk hi1 hi2
        exact absurd (w1.mpr ⟨hfree, hi1, hi2, hk⟩) (by simp)
    | ok u =>
      obtain rfl : u = () := rfl
      obtain ⟨-, a, b, c⟩ := w1.mp rfl
      refine ⟨fun _ => ⟨trivial, c, a, b, ?_⟩, by simp, by simp⟩
      rw [w2 rfl]

/-- The state of a key file: complete, for the given key and passphrase. -/
def Holds (P : Prims) (fs : FS) (f key pass : Bytes) : Prop :=
  ∃ iter salt iv, 0 ≤ iter ∧ iter ≤ 2147483647 ∧ salt.length = 32 ∧ iv.length = 16 ∧
    fs f = some (keyfileBytes P pass iter key salt iv)

theorem Holds.read {P : Prims} (hP : P.Good) {fs : FS} {f key pass : Bytes}
    (hk : key.length = 32) (h : Holds P fs f key pass) : readKeyfile P fs f pass = .ok key := by
  obtain ⟨iter, salt, iv, h0, h1, hs, hiv, hf⟩ := h
  exact readKeyfile_ok P hP fs f pass iter key salt iv hk hs hiv h0 h1 hf

theorem Holds.open {P : Prims} (hP : P.Good) {fs : FS} {f key pass : Bytes}
    (hk : key.length = 32) (h : Holds P fs f key pass) : openDB P fs f key pass = .ok () := by
  unfold openDB
  rw [h.read hP hk]
  simp

/-- After all steps of a successful re-keying. -/
theorem final_state (P : Prims) (fs : FS) (f tmp : Bytes) (hne : f ≠ tmp) (pass : Bytes)
    (iter : Int) (key salt iv : Bytes) :
    applyAll fs (.remove tmp :: [.create tmp,
        .append tmp (Wire.toByte8 (UInt64.ofNat iter.toNat)), .append tmp salt,
        .append tmp (iv ++ cbcEncBlocks P.block (P.kdf pass salt iter.toNat) iv key)] ++
        [.rename tmp f]) f = some (keyfileBytes P pass iter key salt iv) := by
  rw [applyAll_append, show ∀ x (l : List Step), applyAll fs (x :: l) = applyAll (apply fs x) l
    from fun _ _ => rfl, write_content]
  simp [applyAll, apply, upd, hne]

theorem rekey_run (P : Prims) (hP : P.Good) (f dbKey : Bytes) (fs : FS) (o : Rekey) (ho : o.OK) :
    ((o.run P f dbKey fs).2 = .ok () → Holds P (o.run P f dbKey fs).1 f dbKey o.newPass) ∧
    ((o.run P f dbKey fs).2 ≠ .ok () → (o.run P f dbKey fs).1 f = fs f) := by
  obtain ⟨h1, h2, -⟩ := rekey_spec P hP f dbKey fs o ho
  have hne := tmp_ne f
  constructor
  · intro hr
    obtain ⟨-, -, ha, hb, hc⟩ := h1 hr
    refine ⟨o.iter, o.salt, o.iv, ha, hb, ho.1, ho.2, ?_⟩
    show applyAll fs (rekey P fs f dbKey o.oldPass o.newPass o.iter o.salt o.iv).1 f = _
    rw [hc]
    exact final_state P fs f _ hne o.newPass o.iter dbKey o.salt o.iv
  · intro hr
    show applyAll fs (rekey P fs f dbKey o.oldPass o.newPass o.iter o.salt o.iv).1 f = _
    rcases h2 hr with h | h
    · rw [h]; rfl
    · rw [h]; simp [applyAll, apply, upd, hne]

/-! ### C52 -/

/-- After any history of re-keyings (successful or not) of a freshly created
key file, the passphrase of the last successful one (or the initial one) reads
the original database key from the key file and opens the database. -/
theorem C52_rekey_keeps_key (P : Prims) (hP : P.Good) (f key pass0 : Bytes) (iter0 : Int)
    (salt0 iv0 : Bytes) (fs0 : FS) (hs0 : salt0.length = 32) (hiv0 : iv0.length = 16)
    (hcreate : (writeKeyfile P fs0 f pass0 iter0 key salt0 iv0).2 = .ok ())
    (ops : List Rekey) (hops : ∀ o ∈ ops, o.OK) :
    let fs1 := applyAll fs0 (writeKeyfile P fs0 f pass0 iter0 key salt0 iv0).1
    let r := runHistory P f key fs1 pass0 ops
    readKeyfile P r.1 f r.2 = .ok key ∧ openDB P r.1 f key r.2 = .ok () := by
  obtain ⟨-, w1, w2, -⟩ := writeKeyfile_spec P hP fs0 f pass0 iter0 key salt0 iv0 hiv0
  obtain ⟨-, hi0, hi1, hk⟩ := w1.mp hcreate
  have hstart : Holds P (applyAll fs0 (writeKeyfile P fs0 f pass0 iter0 key salt0 iv0).1) f key
      pass0 := by
    refine ⟨iter0, salt0, iv0, hi0, hi1, hs0, hiv0, ?_⟩
    rw [w2 hcreate, write_content, upd_same]
  have main : ∀ (ops : List Rekey) (fs : FS) (pass : Bytes), (∀ o ∈ ops, o.OK) →
      Holds P fs f key pass →
      Holds P (runHistory P f key fs pass ops).1 f key (runHistory P f key fs pass ops).2 := by
    intro ops
    induction ops with
    | nil => intro fs pass _ h; exact h
    | cons o os ih =>
      intro fs pass hok h
      obtain ⟨a, b⟩ := rekey_run P hP f key fs o (hok o (by simp))
      have hos : ∀ o ∈ os, o.OK := fun x hx => hok x (List.mem_cons_of_mem _ hx)
      unfold runHistory
      cases hr : o.run P f key fs with
      | mk fs' res =>
        rw [hr] at a b
        cases res with
        | ok u =>
          obtain rfl : u = () := rfl
          exact ih fs' o.newPass hos (a rfl)
        | err e =>
          refine ih fs' pass hos ?_
          obtain ⟨i, s, v, q1, q2, q3, q4, q5⟩ := h
          exact ⟨i, s, v, q1, q2, q3, q4, (b (by simp)).trans q5⟩
        | panic =>
          refine ih fs' pass hos ?_
          obtain ⟨i, s, v, q1, q2, q3, q4, q5⟩ := h
          exact ⟨i, s, v, q1, q2, q3, q4, (b (by simp)).trans q5⟩
  have := main ops _ pass0 hops hstart
  exact ⟨this.read hP hk, this.open hP hk⟩

/-- Re-keying succeeds exactly if the old passphrase opens the database and the
iteration count is in range; a re-keying that fails leaves the key file as it
was. -/
theorem C52_rekey_result (P : Prims) (hP : P.Good) (f dbKey : Bytes) (fs : FS) (o : Rekey)
    (ho : o.OK) (hk : dbKey.length = 32) :
    ((o.run P f dbKey fs).2 = .ok () ↔
      openDB P fs f dbKey o.oldPass = .ok () ∧ 0 ≤ o.iter ∧ o.iter ≤ 2147483647) ∧
    ((o.run P f dbKey fs).2 ≠ .ok () → (o.run P f dbKey fs).1 f = fs f) := by
  obtain ⟨h1, -, h3⟩ := rekey_spec P hP f dbKey fs o ho
  refine ⟨⟨fun h => ?_, fun h => h3 h.1 hk h.2.1 h.2.2⟩, (rekey_run P hP f dbKey fs o ho).2⟩
  obtain ⟨a, -, b, c, -⟩ := h1 h
  exact ⟨a, b, c⟩

/-! ### C53 -/

theorem applyAll_other {steps : List Step} {fs : FS} {f tmp : Bytes} (hne : f ≠ tmp)
    (h : ∀ s ∈ steps, s = .remove tmp ∨ s = .create tmp ∨ ∃ d, s = .append tmp d) :
    applyAll fs steps f = fs f := by
  induction steps generalizing fs with
  | nil => rfl
  | cons s steps ih =>
    show applyAll (apply fs s) steps f = fs f
    rw [ih (fun x hx => h x (List.mem_cons_of_mem _ hx))]
    rcases h s (by simp) with rfl | rfl | ⟨d, rfl⟩ <;> simp [apply, upd, hne]

theorem fine_applyAll (steps : List Step) (fs : FS) (tmp : Bytes)
    (h : ∀ s ∈ steps, ∃ d, s = .append tmp d) (hex : (fs tmp).isSome) :
    applyAll fs (steps.flatMap fine) = applyAll fs steps := by
  induction steps generalizing fs with
  | nil => rfl
  | cons s steps ih =>
    obtain ⟨d, rfl⟩ := h s (by simp)
    rw [List.flatMap_cons, applyAll_append, apply_fine _ _ _ hex]
    exact ih _ (fun x hx => h x (List.mem_cons_of_mem _ hx)) (by simp [apply, upd])

/-- If the process crashes at any point of a re-keying (also in the middle of
a write), the key file is the old one or the complete new one: it opens with
the old or with the new passphrase, and a later re-keying with that passphrase
succeeds in spite of any left-over temporary file. -/
theorem C53_rekey_crash_partial (P : Prims) (hP : P.Good) (f key pass : Bytes) (fs : FS)
    (hk : key.length = 32) (hold : Holds P fs f key pass) (o : Rekey) (ho : o.OK)
    (fs' : FS)
    (hcrash : CrashState fs (rekey P fs f key o.oldPass o.newPass o.iter o.salt o.iv).1 fs') :
    (openDB P fs' f key pass = .ok () ∨ openDB P fs' f key o.newPass = .ok ()) ∧
    ∀ (o2 : Rekey), o2.OK → 0 ≤ o2.iter → o2.iter ≤ 2147483647 →
      openDB P fs' f key o2.oldPass = .ok () →
      (o2.run P f key fs').2 = .ok () ∧
      openDB P (o2.run P f key fs').1 f key o2.newPass = .ok () := by
  have hne := tmp_ne f
  obtain ⟨h1, h2, -⟩ := rekey_spec P hP f key fs o ho
  have hstate : Holds P fs' f key pass ∨ Holds P fs' f key o.newPass := by
    obtain ⟨k, rfl⟩ := hcrash
    by_cases hr : (rekey P fs f key o.oldPass o.newPass o.iter o.salt o.iv).2 = .ok ()
    · obtain ⟨-, -, ha, hb, hc⟩ := h1 hr
      rw [hc]
      obtain ⟨ds, hds⟩ : ∃ ds, ds = [Step.append (f ++ newSuffix) (Wire.toByte8 (UInt64.ofNat o.iter.toNat)),
        .append (f ++ newSuffix) o.salt, .append (f ++ newSuffix) (o.iv ++ cbcEncBlocks P.block
          (P.kdf o.newPass o.salt o.iter.toNat) o.iv key)] := ⟨_, rfl⟩
      have hdsa : ∀ s ∈ ds, ∃ d, s = Step.append (f ++ newSuffix) d := by
        rw [hds]; intro s hs
        simp only [List.mem_cons, List.not_mem_nil, or_false] at hs
        rcases hs with rfl | rfl | rfl <;> exact ⟨_, rfl⟩
      have hflat : (Step.remove (f ++ newSuffix) :: [Step.create (f ++ newSuffix),
          .append (f ++ newSuffix) (Wire.toByte8 (UInt64.ofNat o.iter.toNat)),
          .append (f ++ newSuffix) o.salt,
          .append (f ++ newSuffix) (o.iv ++ cbcEncBlocks P.block
            (P.kdf o.newPass o.salt o.iter.toNat) o.iv key)] ++
          [Step.rename (f ++ newSuffix) f]).flatMap fine =
          (Step.remove (f ++ newSuffix) :: Step.create (f ++ newSuffix) :: ds.flatMap fine) ++
            [Step.rename (f ++ newSuffix) f] := by
        rw [hds]; simp [fine]
      rw [hflat]
      generalize hpre : (Step.remove (f ++ newSuffix) :: Step.create (f ++ newSuffix) ::
        ds.flatMap fine) = pre
      have hprea : ∀ s ∈ pre, s = .remove (f ++ newSuffix) ∨ s = .create (f ++ newSuffix) ∨
          ∃ d, s = .append (f ++ newSuffix) d := by
        rw [← hpre]; intro s hs
        simp only [List.mem_cons] at hs
        rcases hs with rfl | rfl | hs
        · exact Or.inl rfl
        · exact Or.inr (Or.inl rfl)
        · obtain ⟨x, hx, hsx⟩ := List.mem_flatMap.mp hs
          obtain ⟨d, rfl⟩ := hdsa x hx
          obtain ⟨b, -, rfl⟩ := List.mem_map.mp hsx
          exact Or.inr (Or.inr ⟨_, rfl⟩)
      rcases Nat.lt_or_ge pre.length k with hk' | hk'
      · -- everything was done
        right
        refine ⟨o.iter, o.salt, o.iv, ha, hb, ho.1, ho.2, ?_⟩
        rw [List.take_of_length_le (by simp; omega), applyAll_append]
        have : applyAll fs pre = applyAll fs (.remove (f ++ newSuffix) :: [.create (f ++ newSuffix),
            .append (f ++ newSuffix) (Wire.toByte8 (UInt64.ofNat o.iter.toNat)),
            .append (f ++ newSuffix) o.salt,
            .append (f ++ newSuffix) (o.iv ++ cbcEncBlocks P.block
              (P.kdf o.newPass o.salt o.iter.toNat) o.iv key)]) := by
          rw [← hpre]
          show applyAll (apply (apply fs (.remove (f ++ newSuffix))) (.create (f ++ newSuffix)))
            (ds.flatMap fine) = _
          rw [fine_applyAll ds _ (f ++ newSuffix) hdsa (by simp [apply, upd]), hds]
          rfl
        rw [this, ← applyAll_append]
        exact final_state P fs f _ hne o.newPass o.iter key o.salt o.iv
      · left
        rw [List.take_append_of_le_length hk']
        obtain ⟨i, s, v, q1, q2, q3, q4, q5⟩ := hold
        refine ⟨i, s, v, q1, q2, q3, q4, ?_⟩
        rw [applyAll_other hne (fun s hs => hprea s (List.mem_of_mem_take hs)), q5]
    · left
      obtain ⟨i, s, v, q1, q2, q3, q4, q5⟩ := hold
      refine ⟨i, s, v, q1, q2, q3, q4, ?_⟩
      rw [applyAll_other hne (tmp := f ++ newSuffix), q5]
      intro s hs
      have hs := List.mem_of_mem_take hs
      rcases h2 hr with h | h
      · rw [h] at hs; simp at hs
      · rw [h] at hs; simp [fine] at hs; exact Or.inl hs
  constructor
  · rcases hstate with h | h
    · exact Or.inl (h.open hP hk)
    · exact Or.inr (h.open hP hk)
  · intro o2 ho2 hi0 hi1 hopen
    have hok := (C52_rekey_result P hP f key fs' o2 ho2 hk).1.mpr ⟨hopen, hi0, hi1⟩
    exact ⟨hok, ((rekey_run P hP f key fs' o2 ho2).1 hok).open hP hk⟩

/-- The temporary file is not flushed before the rename. If the machine loses
power afterwards, a file system that keeps the rename but not the unflushed
data leaves an empty key file: after a re-keying that reported success no
passphrase opens the database any more. `lost` is that state. -/
theorem C53_power_loss_loses_key (P : Prims) (hP : P.Good) (f key : Bytes) (fs : FS) (o : Rekey)
    (ho : o.OK) (_hr : (o.run P f key fs).2 = .ok ()) :
    let lost : FS := upd (o.run P f key fs).1 f (some [])
    (∃ c, (o.run P f key fs).1 f = some c ∧ lost f = some (c.take 0)) ∧
    ∀ pass, openDB P lost f key pass = .err .eof := by
  obtain ⟨i, s, v, -, -, -, -, h⟩ := (rekey_run P hP f key fs o ho).1 _hr
  refine ⟨⟨_, h, by simp [upd]⟩, ?_⟩
  intro pass
  unfold openDB readKeyfile
  rw [upd_same]
  simp [readBuf]

/-! ### C67 -/

/-- A crash after the key file was begun and before the database file exists
leaves a state in which neither creating nor opening the database works, with
any passphrase: interrupted creation cannot be repeated without deleting files
by hand. -/
theorem C67_interrupted_create_blocks (P : Prims) (hP : P.Good) (db f pass : Bytes) (iter : Int)
    (key salt iv : Bytes) (fs : FS) (hiv : iv.length = 16) (hne : db ≠ f)
    (hok : (create P fs db f pass iter key salt iv).2 = .ok ()) :
    ∃ fs', CrashState fs (create P fs db f pass iter key salt iv).1 fs' ∧
      (∀ pass' iter' key' salt' iv',
        create P fs' db f pass' iter' key' salt' iv' = ([], .err .exist)) ∧
      (∀ dbKey pass', openFull P fs' db f dbKey pass' = .err .notFound) := by
  have hdb : (fs db).isSome = false := by
    unfold create at hok
    split at hok
    · simp at hok
    · rename_i h; simpa using h
  obtain ⟨w0, w1, w2, w3⟩ := writeKeyfile_spec P hP fs f pass iter key salt iv hiv
  have hw : (writeKeyfile P fs f pass iter key salt iv).2 = .ok () := by
    unfold create at hok
    split at hok
    · simp at hok
    · split at hok
      · simp at hok
      · split at hok
        · rename_i ws h; rw [h]
        · exact hok
  have hsteps := w2 hw
  have hcs : (create P fs db f pass iter key salt iv).1 =
      (writeKeyfile P fs f pass iter key salt iv).1 ++ [.create db] := by
    have hf : (fs f).isSome = false := (w1.mp hw).1
    unfold create
    rw [if_neg (by simp [hdb]), if_neg (by simp [hf])]
    generalize writeKeyfile P fs f pass iter key salt iv = w at *
    obtain ⟨ws, wr⟩ := w
    simp only at hw
    subst hw
    rfl
  refine ⟨upd fs f (some []), ⟨1, ?_⟩, ?_, ?_⟩
  · rw [hcs, hsteps]
    rfl
  · intro pass' iter' key' salt' iv'
    unfold create
    rw [if_neg (by rw [upd_other hne]; simp [hdb]), if_pos (by rw [upd_same]; rfl)]
  · intro dbKey pass'
    unfold openFull
    rw [if_pos (by rw [upd_other hne]; simpa using hdb)]

/-! ### The hypotheses can be met -/

/-- Toy primitives: the derived key is the padded passphrase. -/
def toyP : Prims := ⟨xorBlock, fun pass _ _ => (pass ++ List.replicate 32 0).take 32⟩

theorem toyP_good : toyP.Good := ⟨xorBlock_good, by intro p s i; simp [toyP]⟩

/-- The name of the key file in the examples. -/
def toyFile : Bytes := [107]

/-- A created key file. -/
def toyFS : FS := applyAll (fun _ => none)
  (writeKeyfile toyP (fun _ => none) toyFile [1] 64000 (List.replicate 32 7)
    (List.replicate 32 3) (List.replicate 16 4)).1

/-- Creating and then re-keying succeed, and the wrong passphrase is refused. -/
example : (writeKeyfile toyP (fun _ => none) toyFile [1] 64000 (List.replicate 32 7)
      (List.replicate 32 3) (List.replicate 16 4)).2 = .ok () ∧
    (Rekey.run toyP toyFile (List.replicate 32 7) toyFS
      ⟨[1], [2], 5, List.replicate 32 9, List.replicate 16 8⟩).2 = .ok () ∧
    (Rekey.run toyP toyFile (List.replicate 32 7) toyFS
      ⟨[3], [2], 5, List.replicate 32 9, List.replicate 16 8⟩).2 = .err .wrongKey := by
  have h1 : (writeKeyfile toyP (fun _ => none) toyFile [1] 64000 (List.replicate 32 7)
      (List.replicate 32 3) (List.replicate 16 4)).2 = .ok () := by decide +kernel
  refine ⟨h1, ?_, by decide +kernel⟩
  refine (C52_rekey_result toyP toyP_good toyFile _ toyFS _ ⟨rfl, rfl⟩ rfl).1.mpr ⟨?_, by decide, by decide⟩
  exact (C52_rekey_keeps_key toyP toyP_good toyFile _ [1] 64000 _ _ _ rfl rfl h1 [] (by simp)).2

end Verif.Encdb

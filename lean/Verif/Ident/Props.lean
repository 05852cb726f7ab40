/-
C16: identity mapping is canonical. The specification of a canonical identity
is `Canonical`, stated without the mapping functions.
-/
import Verif.Ident.Model

namespace Verif.Ident

/-! ### Specification -/

/-- Characters allowed in a mapped local part: lower-case letters except `j`,
digits except `0` and `1`, and the two separators. -/
def Allowed (c : Char) : Prop :=
  (('a' ≤ c ∧ c ≤ 'z') ∧ c ≠ 'j') ∨ ('2' ≤ c ∧ c ≤ '9') ∨ c = '-' ∨ c = '.'

/-- The two separators. -/
def Sep (c : Char) : Prop := c = '-' ∨ c = '.'

/-- A well-formed local part. -/
structure GoodLocal (lp : Str) : Prop where
  chars : ∀ c ∈ lp, Allowed c
  min : 3 ≤ lp.length
  max : lp.length ≤ 64
  start : ∀ c, lp.head? = some c → ¬ Sep c
  stop : ∀ c, lp.getLast? = some c → ¬ Sep c
  norepeat : ∀ i a b, lp[i]? = some a → lp[i + 1]? = some b → ¬ (Sep a ∧ Sep b)

/-- `local@domain` with a well-formed local part, no second '@', and a domain
in lower case. -/
def Canonical (U : Unicode) (id : Str) : Prop :=
  ∃ lp domain, id = lp ++ '@' :: domain ∧ GoodLocal lp ∧ '@' ∉ domain ∧
    ∀ c ∈ domain, U.lower c = c

/-! ### Lemmas -/

theorem allowed_lower {c : Char} (h : Allowed c) :
    c.isLower ∨ c.isDigit ∨ c = '-' ∨ c = '.' := by
  rcases h with ⟨⟨h1, h2⟩, -⟩ | ⟨h1, h2⟩ | h | h
  · left; simp only [Char.isLower, Bool.and_eq_true, decide_eq_true_eq]; exact ⟨h1, h2⟩
  · right; left
    simp only [Char.isDigit, Bool.and_eq_true, decide_eq_true_eq]
    exact ⟨Nat.le_trans (by decide) h1, h2⟩
  · simp [h]
  · simp [h]

theorem mapping_allowed {c d : Char} (h : mapping c = some d) : Allowed d := by
  unfold mapping at h
  split at h
  · cases h; left; decide
  split at h
  · cases h; left; decide
  split at h
  · cases h; left; decide
  split at h
  · cases h; rename_i h1 h2 h3 h4; exact Or.inl ⟨h4, h3⟩
  split at h
  · cases h; rename_i h5; exact Or.inr (Or.inl h5)
  split at h
  · cases h; rename_i h6; exact Or.inr (Or.inr h6)
  · cases h

theorem mapping_fix {c : Char} (h : Allowed c) : mapping c = some c := by
  unfold mapping
  have n0 : c ≠ '0' := by rintro rfl; revert h; unfold Allowed; decide
  have n1 : c ≠ '1' := by rintro rfl; revert h; unfold Allowed; decide
  have nj : c ≠ 'j' := by rintro rfl; revert h; unfold Allowed; decide
  rw [if_neg n0, if_neg n1, if_neg nj]
  rcases h with ⟨h, -⟩ | h | h
  · rw [if_pos h]
  · rw [if_pos h]; split <;> rfl
  · rw [if_pos h]
    split
    · rfl
    · split <;> rfl

theorem mapping_sep {c d : Char} (h : mapping c = some d) : Sep c ↔ Sep d := by
  unfold mapping at h
  split at h
  · cases h; rename_i h; subst h; unfold Sep; decide
  split at h
  · cases h; rename_i h; subst h; unfold Sep; decide
  split at h
  · cases h; rename_i h; subst h; unfold Sep; decide
  split at h
  · cases h; rfl
  split at h
  · cases h; rfl
  split at h
  · cases h; rfl
  · cases h

theorem mapAll_spec {s t : Str} (h : mapAll s = some t) :
    s.length = t.length ∧ (∀ (i : Nat) c, t[i]? = some c → ∃ b, s[i]? = some b ∧ mapping b = some c) := by
  induction s generalizing t with
  | nil => cases h; simp
  | cons a s ih =>
    unfold mapAll at h
    cases h1 : mapping a with
    | none => rw [h1] at h; simp at h
    | some d =>
      cases h2 : mapAll s with
      | none => rw [h1, h2] at h; simp at h
      | some ds =>
        rw [h1, h2] at h
        simp only [Option.some.injEq] at h
        subst h
        obtain ⟨l, m⟩ := ih h2
        refine ⟨by simp [l], ?_⟩
        intro i c hc
        cases i with
        | zero => simp only [List.getElem?_cons_zero, Option.some.injEq] at hc; subst hc; exact ⟨a, rfl, h1⟩
        | succ i => simpa using m i c (by simpa using hc)

theorem mapAll_fix {s : Str} (h : ∀ c ∈ s, Allowed c) : mapAll s = some s := by
  induction s with
  | nil => rfl
  | cons a s ih =>
    unfold mapAll
    rw [mapping_fix (h a (by simp)), ih (fun c hc => h c (List.mem_cons_of_mem _ hc))]

theorem utf8_ascii {c : Char} (h : c.val ≤ 127) : c.utf8Size = 1 := by
  unfold Char.utf8Size
  exact if_pos h

theorem utf8_allowed {c : Char} (h : Allowed c) : c.utf8Size = 1 := by
  have : c.val ≤ 127 := by
    rcases h with ⟨⟨-, h⟩, -⟩ | ⟨-, h⟩ | rfl | rfl
    · exact Nat.le_trans h (by decide)
    · exact Nat.le_trans h (by decide)
    · decide
    · decide
  exact utf8_ascii this

theorem byteLen_allowed {s : Str} (h : ∀ c ∈ s, Allowed c) : byteLen s = s.length := by
  induction s with
  | nil => rfl
  | cons a s ih =>
    have := ih (fun c hc => h c (List.mem_cons_of_mem _ hc))
    unfold byteLen at this ⊢
    simp only [List.map_cons, List.sum_cons, utf8_allowed (h a (by simp)), this, List.length_cons]
    omega

theorem byteLen_ge (s : Str) : s.length ≤ byteLen s := by
  induction s with
  | nil => simp [byteLen]
  | cons a s ih =>
    have := Char.utf8Size_pos a
    unfold byteLen at ih ⊢
    simp only [List.map_cons, List.sum_cons, List.length_cons]
    omega

theorem containsPair_iff (a b : Char) (s : Str) :
    containsPair a b s = true ↔ ∃ i, s[i]? = some a ∧ s[i + 1]? = some b := by
  induction s with
  | nil => simp [containsPair]
  | cons x s ih =>
    cases s with
    | nil => simp [containsPair]
    | cons y rest =>
      simp only [containsPair, Bool.or_eq_true, Bool.and_eq_true, beq_iff_eq, ih]
      constructor
      · rintro (⟨rfl, rfl⟩ | ⟨i, h1, h2⟩)
        · exact ⟨0, rfl, rfl⟩
        · exact ⟨i + 1, by simpa using h1, by simpa using h2⟩
      · rintro ⟨i, h1, h2⟩
        cases i with
        | zero => simp at h1 h2; exact Or.inl ⟨h1, h2⟩
        | succ i => exact Or.inr ⟨i, by simpa using h1, by simpa using h2⟩

theorem splitAt_ne_nil (s : Str) : splitAt s ≠ [] := by
  cases s with
  | nil => simp [splitAt]
  | cons c cs =>
    unfold splitAt
    split
    · simp
    · split <;> simp

theorem splitAt_noAt {s : Str} (h : '@' ∉ s) : splitAt s = [s] := by
  induction s with
  | nil => rfl
  | cons c cs ih =>
    simp only [List.mem_cons, not_or] at h
    unfold splitAt
    rw [if_neg (Ne.symm h.1), ih h.2]

theorem splitAt_append {a : Str} (b : Str) (h : '@' ∉ a) :
    splitAt (a ++ '@' :: b) = a :: splitAt b := by
  induction a with
  | nil => simp [splitAt]
  | cons c cs ih =>
    simp only [List.mem_cons, not_or] at h
    rw [List.cons_append, splitAt, if_neg (Ne.symm h.1), ih h.2]

theorem splitAt_one {s a : Str} (h : splitAt s = [a]) : s = a ∧ '@' ∉ a := by
  induction s generalizing a with
  | nil => simp [splitAt] at h; subst h; simp
  | cons c cs ih =>
    unfold splitAt at h
    split at h
    · simp only [List.cons.injEq] at h
      exact absurd h.2 (splitAt_ne_nil cs)
    · rename_i hc
      cases hs : splitAt cs with
      | nil => exact absurd hs (splitAt_ne_nil cs)
      | cons p ps =>
        rw [hs] at h
        simp only [List.cons.injEq] at h
        obtain ⟨rfl, rfl⟩ := h
        obtain ⟨rfl, h2⟩ := ih hs
        exact ⟨rfl, by simp only [List.mem_cons, not_or]; exact ⟨Ne.symm hc, h2⟩⟩

theorem splitAt_two {s a b : Str} (h : splitAt s = [a, b]) :
    s = a ++ '@' :: b ∧ '@' ∉ a ∧ '@' ∉ b := by
  induction s generalizing a with
  | nil => simp [splitAt] at h
  | cons c cs ih =>
    unfold splitAt at h
    split at h
    · rename_i hc
      simp only [List.cons.injEq] at h
      obtain ⟨rfl, h⟩ := h
      obtain ⟨rfl, hb⟩ := splitAt_one h
      subst hc
      exact ⟨rfl, by simp, hb⟩
    · rename_i hc
      cases hs : splitAt cs with
      | nil => exact absurd hs (splitAt_ne_nil cs)
      | cons p ps =>
        rw [hs] at h
        simp only [List.cons.injEq] at h
        obtain ⟨rfl, rfl⟩ := h
        obtain ⟨rfl, h2, h3⟩ := ih hs
        exact ⟨rfl, by simp only [List.mem_cons, not_or]; exact ⟨Ne.symm hc, h2⟩, h3⟩

theorem split_iff {id lp domain : Str} :
    split id = .ok (lp, domain) ↔ id = lp ++ '@' :: domain ∧ '@' ∉ lp ∧ '@' ∉ domain := by
  constructor
  · intro h
    unfold split at h
    split at h
    · rename_i hs
      simp only [Res.ok.injEq, Prod.mk.injEq] at h
      obtain ⟨rfl, rfl⟩ := h
      exact splitAt_two hs
    · cases h
  · rintro ⟨rfl, h1, h2⟩
    unfold split
    rw [splitAt_append _ h1, splitAt_noAt h2]

theorem split_not_panic (id : Str) : split id ≠ .panic := by
  unfold split; split <;> simp

theorem dropWhile_none {p : Char → Bool} {s : Str} (h : ∀ c ∈ s, p c = false) :
    s.dropWhile p = s := by
  cases s with
  | nil => rfl
  | cons a s => simp [h a (by simp)]

theorem trimSpace_fix (U : Unicode) {s : Str} (h : ∀ c ∈ s, U.space c = false) :
    trimSpace U s = s := by
  unfold trimSpace
  rw [dropWhile_none h, dropWhile_none (by intro c hc; exact h c (List.mem_reverse.mp hc)),
    List.reverse_reverse]

/-- The checks before the mapping, as properties of the string. -/
theorem mapLocalpart_ok {U : Unicode} {s t : Str} (h : mapLocalpart U s = .ok t) : GoodLocal t := by
  unfold mapLocalpart at h
  dsimp only at h
  generalize hlp : (trimSpace U s).map U.lower = lp at h
  split at h
  · cases h
  rename_i hmin
  split at h
  · cases h
  rename_i hs1
  split at h
  · cases h
  rename_i hs2
  split at h
  · cases h
  rename_i he1
  split at h
  · cases h
  rename_i he2
  split at h
  · cases h
  rename_i c1
  split at h
  · cases h
  rename_i c2
  split at h
  · cases h
  rename_i c3
  split at h
  · cases h
  rename_i c4
  cases hm : mapAll lp with
  | none => rw [hm] at h; cases h
  | some u =>
    rw [hm] at h
    dsimp only at h
    split at h
    · cases h
    rename_i hmax
    simp only [Res.ok.injEq] at h
    subst h
    obtain ⟨hlen, hch⟩ := mapAll_spec hm
    have hall : ∀ c ∈ u, Allowed c := by
      intro c hc
      obtain ⟨i, hi⟩ := List.mem_iff_getElem?.mp hc
      obtain ⟨b, -, hb⟩ := hch i c hi
      exact mapping_allowed hb
    have hul := byteLen_allowed hall
    have hback : ∀ (i : Nat) c, u[i]? = some c → Sep c → lp[i]? = some c := by
      intro i c hc hsep
      obtain ⟨b, hb1, hb2⟩ := hch i c hc
      have hbs : Sep b := (mapping_sep hb2).mpr hsep
      have : mapping b = some b := by
        rcases hbs with rfl | rfl <;> decide
      rw [this, Option.some.injEq] at hb2
      rw [hb1, hb2]
    have hlow : ∀ c ∈ lp, c.utf8Size = 1 := by
      intro c hc
      obtain ⟨i, hi⟩ := List.mem_iff_getElem?.mp hc
      obtain ⟨hi', -⟩ := List.getElem?_eq_some_iff.mp hi
      have hiu : i < u.length := by omega
      obtain ⟨b, hb1, hb2⟩ := hch i u[i] (List.getElem?_eq_getElem hiu)
      rw [hi, Option.some.injEq] at hb1
      subst hb1
      unfold mapping at hb2
      have : c.val ≤ 127 := by
        split at hb2
        · rename_i e; subst e; decide
        split at hb2
        · rename_i e; subst e; decide
        split at hb2
        · rename_i e; subst e; decide
        split at hb2
        · rename_i e; exact Nat.le_trans e.2 (by decide)
        split at hb2
        · rename_i e; exact Nat.le_trans e.2 (by decide)
        split at hb2
        · rename_i e; rcases e with rfl | rfl <;> decide
        · cases hb2
      exact utf8_ascii this
    have hblp : byteLen lp = lp.length := by
      clear hmin hs1 hs2 he1 he2 c1 c2 c3 c4 hm hlen hch hback hlp
      induction lp with
      | nil => rfl
      | cons a s ih =>
        have := ih (fun c hc => hlow c (List.mem_cons_of_mem _ hc))
        unfold byteLen at this ⊢
        simp only [List.map_cons, List.sum_cons, hlow a (by simp), this, List.length_cons]
        omega
    have hlast : ∀ (s : Str) c, s.getLast? = some c ↔ 0 < s.length ∧ s[s.length - 1]? = some c := by
      intro s c
      rw [List.getLast?_eq_getElem?]
      constructor
      · intro h
        obtain ⟨h', -⟩ := List.getElem?_eq_some_iff.mp h
        exact ⟨by omega, h⟩
      · exact fun h => h.2
    refine ⟨hall, by omega, by omega, ?_, ?_, ?_⟩
    · intro c hc hsep
      rw [List.head?_eq_getElem?] at hc hs1 hs2
      have := hback 0 c hc hsep
      rcases hsep with rfl | rfl
      · exact hs1 this
      · exact hs2 this
    · intro c hc hsep
      rw [List.getLast?_eq_getElem?] at hc he1 he2
      have := hback _ c hc hsep
      rw [← hlen] at this
      rcases hsep with rfl | rfl
      · exact he1 this
      · exact he2 this
    · intro i a b ha hb hsep
      have h1 := hback i a ha hsep.1
      have h2 := hback (i + 1) b hb hsep.2
      rcases hsep with ⟨rfl | rfl, rfl | rfl⟩
      · exact c1 ((containsPair_iff _ _ _).mpr ⟨i, h1, h2⟩)
      · exact c2 ((containsPair_iff _ _ _).mpr ⟨i, h1, h2⟩)
      · exact c3 ((containsPair_iff _ _ _).mpr ⟨i, h1, h2⟩)
      · exact c4 ((containsPair_iff _ _ _).mpr ⟨i, h1, h2⟩)

theorem mapLocalpart_fix {U : Unicode} (hU : U.Good) {s : Str} (h : GoodLocal s) :
    mapLocalpart U s = .ok s := by
  have hlow : s.map U.lower = s := by
    have : ∀ c ∈ s, U.lower c = id c := fun c hc => hU.lower_fix c (allowed_lower (h.chars c hc))
    rw [List.map_congr_left this, List.map_id]
  have e : (trimSpace U s).map U.lower = s := by
    rw [trimSpace_fix U (fun c hc => hU.space_no c (allowed_lower (h.chars c hc))), hlow]
  have hb := byteLen_allowed h.chars
  have hmin := h.min
  have hmax := h.max
  have nopair : ∀ a b, Sep a → Sep b → containsPair a b s = false := by
    intro a b ha hb
    cases hc : containsPair a b s with
    | false => rfl
    | true =>
      obtain ⟨i, h1, h2⟩ := (containsPair_iff _ _ _).mp hc
      exact absurd ⟨ha, hb⟩ (h.norepeat i a b h1 h2)
  have d : Sep '-' := Or.inl rfl
  have p : Sep '.' := Or.inr rfl
  unfold mapLocalpart
  simp only [e]
  rw [if_neg (by omega), if_neg (fun hc => h.start _ hc d), if_neg (fun hc => h.start _ hc p),
    if_neg (fun hc => h.stop _ hc d), if_neg (fun hc => h.stop _ hc p)]
  simp only [nopair _ _ d d, nopair _ _ d p, nopair _ _ p d, nopair _ _ p p, mapAll_fix h.chars]
  simp only [Bool.false_eq_true, if_false]
  rw [if_neg (by omega)]

theorem goodLocal_noAt {s : Str} (h : GoodLocal s) : '@' ∉ s := by
  intro hm
  have := h.chars _ hm
  revert this
  unfold Allowed
  decide

theorem mapLocalpart_not_panic (U : Unicode) (s : Str) : mapLocalpart U s ≠ .panic := by
  unfold mapLocalpart
  dsimp only
  generalize (trimSpace U s).map U.lower = lp
  have ite : ∀ {c : Prop} [Decidable c] {a b : Res Err Str}, a ≠ .panic → b ≠ .panic →
      (if c then a else b) ≠ .panic := by
    intro c _ a b h1 h2
    by_cases h : c
    · rw [if_pos h]; exact h1
    · rw [if_neg h]; exact h2
  iterate 9 refine ite (by simp) ?_
  cases mapAll lp with
  | none => simp
  | some u => exact ite (by simp) (by simp)

/-! ### Theorems -/

theorem map_ok {U : Unicode} {id m : Str} (h : map U id = .ok m) :
    ∃ lp domain mlp, id = lp ++ '@' :: domain ∧ '@' ∉ lp ∧ '@' ∉ domain ∧ byteLen id ≤ 254 ∧
      mapLocalpart U lp = .ok mlp ∧ m = mlp ++ '@' :: mapDomain U domain := by
  unfold map at h
  split at h
  · cases h
  rename_i hl
  cases hs : split id with
  | panic => exact absurd hs (split_not_panic _)
  | err e => rw [hs] at h; cases h
  | ok q =>
    obtain ⟨lp, domain⟩ := q
    rw [hs] at h
    dsimp only at h
    cases hm : mapLocalpart U lp with
    | panic => rw [hm] at h; cases h
    | err e => rw [hm] at h; cases h
    | ok mlp =>
      rw [hm] at h
      simp only [Res.ok.injEq] at h
      obtain ⟨h1, h2, h3⟩ := split_iff.mp hs
      exact ⟨lp, domain, mlp, h1, h2, h3, by unfold maxLen at hl; omega, hm, h.symm⟩

/-- Whatever the input, a mapped identity is canonical: one '@', a local part
of 3 to 64 allowed characters without leading, trailing or repeated separators,
and a lower-case domain. -/
theorem C16_map_canonical (U : Unicode) (hU : U.Good) (id m : Str) (h : map U id = .ok m) :
    Canonical U m := by
  obtain ⟨lp, domain, mlp, -, -, h3, -, h5, rfl⟩ := map_ok h
  refine ⟨mlp, mapDomain U domain, rfl, mapLocalpart_ok h5, ?_, ?_⟩
  · intro hm
    obtain ⟨c, hc, e⟩ := List.mem_map.mp hm
    rw [hU.lower_at] at e
    subst e
    exact h3 hc
  · intro c hc
    obtain ⟨d, -, rfl⟩ := List.mem_map.mp hc
    exact hU.lower_idem d

/-- The check accepts exactly the canonical identities of at most 254 bytes,
and these are exactly the strings that mapping leaves unchanged. -/
theorem C16_isMapped_iff (U : Unicode) (hU : U.Good) (id : Str) :
    (isMapped U id = true ↔ map U id = .ok id) ∧
    (isMapped U id = true ↔ Canonical U id ∧ byteLen id ≤ 254) := by
  have h1 : isMapped U id = true ↔ map U id = .ok id := by
    unfold isMapped
    cases map U id with
    | panic => simp
    | err e => simp
    | ok m => simp
  refine ⟨h1, h1.trans ⟨fun h => ?_, ?_⟩⟩
  · obtain ⟨-, -, -, -, -, -, hl, -, -⟩ := map_ok h
    exact ⟨C16_map_canonical U hU id id h, hl⟩
  · rintro ⟨⟨lp, domain, rfl, hg, hat, hdom⟩, hl⟩
    have hs : split (lp ++ '@' :: domain) = .ok (lp, domain) :=
      split_iff.mpr ⟨rfl, goodLocal_noAt hg, hat⟩
    have hd : mapDomain U domain = domain := by
      have : ∀ c ∈ domain, U.lower c = _root_.id c := hdom
      unfold mapDomain
      rw [List.map_congr_left this, List.map_id]
    unfold map
    rw [if_neg (by unfold maxLen; omega), hs]
    simp only [mapLocalpart_fix hU hg, hd]

/-- Mapping a mapped identity changes nothing, provided the mapped identity is
still within the length limit of 254 bytes. Missing for the full claim:
lower-casing a domain can make it longer, see `C16_map_not_idempotent`. -/
theorem C16_map_idempotent_partial (U : Unicode) (hU : U.Good) (id m : Str)
    (h : map U id = .ok m) (hl : byteLen m ≤ 254) : map U m = .ok m ∧ isMapped U m = true := by
  have := (C16_isMapped_iff U hU m).2.mpr ⟨C16_map_canonical U hU id m h, hl⟩
  exact ⟨(C16_isMapped_iff U hU m).1.mp this, this⟩

theorem byteLen_map_le {f : Char → Char} {s : Str} (h : ∀ c ∈ s, (f c).utf8Size ≤ c.utf8Size) :
    byteLen (s.map f) ≤ byteLen s := by
  induction s with
  | nil => simp [byteLen]
  | cons a s ih =>
    have h1 := h a (by simp)
    have h2 := ih (fun c hc => h c (List.mem_cons_of_mem _ hc))
    unfold byteLen at h2 ⊢
    simp only [List.map_cons, List.sum_cons]
    omega

theorem byteLen_append (a b : Str) : byteLen (a ++ b) = byteLen a + byteLen b := by
  simp [byteLen]

theorem length_dropWhile_le (p : Char → Bool) (s : Str) : (s.dropWhile p).length ≤ s.length := by
  induction s with
  | nil => simp
  | cons a s ih =>
    simp only [List.dropWhile_cons]
    split
    · simp; omega
    · simp

/-- For identities whose domain consists of ASCII characters the mapping is
idempotent without any further condition. -/
theorem C16_map_idempotent_ascii_partial (U : Unicode) (hU : U.Good)
    (hA : ∀ c : Char, c.val ≤ 127 → (U.lower c).val ≤ 127) (lp domain m : Str)
    (hdom : ∀ c ∈ domain, c.val ≤ 127) (h : map U (lp ++ '@' :: domain) = .ok m) :
    map U m = .ok m := by
  obtain ⟨lp', domain', mlp, he, h2, h3, hl, h5, rfl⟩ := map_ok h
  have hdd : lp' = lp ∧ domain' = domain := by
    have hnd : '@' ∉ domain := by
      intro hm
      have hs' : split (lp' ++ '@' :: domain') = .ok (lp', domain') := split_iff.mpr ⟨rfl, h2, h3⟩
      rw [← he] at hs'
      have hcount := congrArg (List.count '@') he
      rw [List.count_append, List.count_append, List.count_cons_self, List.count_cons_self,
        List.count_eq_zero.mpr h2, List.count_eq_zero.mpr h3] at hcount
      have := List.count_pos_iff.mpr hm
      omega
    have hnl : '@' ∉ lp := by
      intro hm
      have hcount := congrArg (List.count '@') he
      rw [List.count_append, List.count_append, List.count_cons_self, List.count_cons_self,
        List.count_eq_zero.mpr h2, List.count_eq_zero.mpr h3] at hcount
      have := List.count_pos_iff.mpr hm
      omega
    have a : split (lp ++ '@' :: domain) = .ok (lp, domain) := split_iff.mpr ⟨rfl, hnl, hnd⟩
    have b : split (lp ++ '@' :: domain) = .ok (lp', domain') := split_iff.mpr ⟨he, h2, h3⟩
    rw [a] at b
    simp only [Res.ok.injEq, Prod.mk.injEq] at b
    exact ⟨b.1.symm, b.2.symm⟩
  obtain ⟨rfl, rfl⟩ := hdd
  refine (C16_map_idempotent_partial U hU _ _ h ?_).1
  have hg := mapLocalpart_ok h5
  have hm : mlp.length ≤ byteLen lp' := by
    unfold mapLocalpart at h5
    dsimp only at h5
    have : ∀ t, mapAll ((trimSpace U lp').map U.lower) = some t → t.length ≤ byteLen lp' := by
      intro t ht
      have h1 := (mapAll_spec ht).1
      have h2 : (trimSpace U lp').length ≤ lp'.length := by
        unfold trimSpace
        have a := length_dropWhile_le U.space lp'
        have b := length_dropWhile_le U.space (lp'.dropWhile U.space).reverse
        simp only [List.length_reverse] at b ⊢
        omega
      have h3 := byteLen_ge lp'
      simp only [List.length_map] at h1
      omega
    cases hma : mapAll ((trimSpace U lp').map U.lower) with
    | none =>
      exfalso
      rw [hma] at h5
      revert h5
      have ite : ∀ {c : Prop} [Decidable c] {a b : Res Err Str}, a ≠ .ok mlp → b ≠ .ok mlp →
          (if c then a else b) ≠ .ok mlp := by
        intro c _ a b h1 h2
        by_cases h : c
        · rw [if_pos h]; exact h1
        · rw [if_neg h]; exact h2
      show _ ≠ _
      iterate 9 refine ite (by simp) ?_
      simp
    | some t =>
      have := this t hma
      rw [hma] at h5
      have ite : ∀ {c : Prop} [Decidable c] {a b : Res Err Str}, (a = .ok mlp → t = mlp) →
          (b = .ok mlp → t = mlp) → ((if c then a else b) = .ok mlp → t = mlp) := by
        intro c _ a b h1 h2
        by_cases h : c
        · rw [if_pos h]; exact h1
        · rw [if_neg h]; exact h2
      have : t = mlp := by
        revert h5
        iterate 9 refine ite (by simp) ?_
        refine ite (by simp) ?_
        simp
      subst this
      assumption
  have hd : byteLen (mapDomain U domain') ≤ byteLen domain' := by
    apply byteLen_map_le
    intro c hc
    have := hdom c hc
    rw [utf8_ascii this, utf8_ascii (hA c this)]
    exact Nat.le_refl _
  rw [byteLen_append] at hl ⊢
  rw [byteLen_allowed hg.chars]
  have e1 : ∀ s, byteLen ('@' :: s) = 1 + byteLen s := by
    intro s
    show byteLen (['@'] ++ s) = _
    rw [byteLen_append]
    rfl
  rw [e1] at hl ⊢
  omega

/-- Mapping never panics, and `MapPlus` agrees with `Map` and returns the text
after the '@' of the mapped identity. -/
theorem C16_mapPlus (U : Unicode) (id : Str) :
    map U id ≠ .panic ∧ mapPlus U id ≠ .panic ∧
    (∀ m, map U id = .ok m ↔ ∃ d, mapPlus U id = .ok (m, d)) ∧
    (∀ m d, mapPlus U id = .ok (m, d) → ∃ lp, m = lp ++ '@' :: d ∧ GoodLocal lp) := by
  unfold map mapPlus
  split
  · simp
  · cases hs : split id with
    | panic => exact absurd hs (split_not_panic _)
    | err e => simp
    | ok q =>
      obtain ⟨lp, domain⟩ := q
      dsimp only
      cases hm : mapLocalpart U lp with
      | panic => exact absurd hm (mapLocalpart_not_panic _ _)
      | err e => simp
      | ok mlp =>
        refine ⟨by simp, by simp, ?_, ?_⟩
        · intro m; simp
        · intro m d h
          simp only [Res.ok.injEq, Prod.mk.injEq] at h
          obtain ⟨rfl, rfl⟩ := h
          exact ⟨mlp, rfl, mapLocalpart_ok hm⟩

/-! ### A concrete Unicode instance and the counterexample -/

/-- ASCII lower-casing plus one letter beyond it: U+023A, whose lower case
U+2C65 is longer in UTF-8. -/
def lowerW (c : Char) : Char :=
  if 'A' ≤ c ∧ c ≤ 'Z' then Char.ofNat (c.toNat + 32)
  else if c = 'Ⱥ' then 'ⱥ' else c

/-- The witness instance. -/
def uniW : Unicode := ⟨lowerW, fun c => c == ' '⟩

theorem lowerW_cases (c : Char) : (lowerW c = c ∧ ¬ ('A' ≤ c ∧ c ≤ 'Z')) ∨
    (('a' ≤ lowerW c ∧ lowerW c ≤ 'z') ∧ ('A' ≤ c ∧ c ≤ 'Z')) ∨
    (c = 'Ⱥ' ∧ lowerW c = 'ⱥ') := by
  unfold lowerW
  split
  · rename_i h
    right; left
    refine ⟨?_, h⟩
    have h1 : 65 ≤ c.toNat := h.1
    have h2 : c.toNat ≤ 90 := h.2
    have hv : (c.toNat + 32).isValidChar := by left; omega
    have : (Char.ofNat (c.toNat + 32)).toNat = c.toNat + 32 := by
      rw [Char.ofNat, dif_pos hv]; rfl
    constructor
    · show 97 ≤ (Char.ofNat (c.toNat + 32)).toNat
      omega
    · show (Char.ofNat (c.toNat + 32)).toNat ≤ 122
      omega
  · rename_i h
    split
    · rename_i h2
      subst h2
      right; right; exact ⟨rfl, rfl⟩
    · left; exact ⟨rfl, h⟩

theorem uniW_good : uniW.Good where
  lower_fix := by
    intro c hc
    show lowerW c = c
    rcases lowerW_cases c with ⟨h, -⟩ | ⟨-, h1, h2⟩ | ⟨rfl, -⟩
    · exact h
    · exfalso
      have h1 : 65 ≤ c.toNat := h1
      have h2 : c.toNat ≤ 90 := h2
      rcases hc with hc | hc | rfl | rfl
      · simp only [Char.isLower, Bool.and_eq_true, decide_eq_true_eq] at hc
        have : 97 ≤ c.toNat := hc.1
        omega
      · simp only [Char.isDigit, Bool.and_eq_true, decide_eq_true_eq] at hc
        have : c.toNat ≤ 57 := hc.2
        omega
      · exact absurd h1 (by decide)
      · exact absurd h1 (by decide)
    · exact absurd hc (by decide)
  lower_idem := by
    intro c
    show lowerW (lowerW c) = lowerW c
    rcases lowerW_cases c with ⟨h, -⟩ | ⟨⟨h1, h2⟩, -⟩ | ⟨-, h⟩
    · rw [h]; exact h
    · generalize lowerW c = d at h1 h2
      rcases lowerW_cases d with ⟨h, -⟩ | ⟨-, -, h3⟩ | ⟨rfl, -⟩
      · exact h
      · have : 97 ≤ d.toNat := h1
        have : d.toNat ≤ 90 := h3
        omega
      · exact absurd h2 (by decide)
    · rw [h]; decide
  lower_at := by
    intro c
    show lowerW c = '@' ↔ c = '@'
    rcases lowerW_cases c with ⟨h, -⟩ | ⟨⟨h1, h2⟩, h3, h4⟩ | ⟨rfl, h⟩
    · rw [h]
    · constructor
      · intro e; rw [e] at h1; exact absurd h1 (by decide)
      · rintro rfl; exact absurd h3 (by decide)
    · rw [h]; decide
  space_no := by
    intro c hc
    show (c == ' ') = false
    rw [beq_eq_false_iff_ne]
    rintro rfl
    exact absurd hc (by decide)

/-- Idempotence fails for domains that grow when lower-cased: an identity of
254 bytes is mapped to one that mapping refuses, so `Map` can return an
identity that `IsMapped` rejects. -/
theorem C16_map_not_idempotent :
    ∃ U : Unicode, U.Good ∧ ∃ id m, map U id = .ok m ∧ map U m = .err .tooLong ∧
      isMapped U m = false := by
  refine ⟨uniW, uniW_good, "abc@".toList ++ List.replicate 125 'Ⱥ',
    "abc@".toList ++ List.replicate 125 'ⱥ', ?_, ?_, ?_⟩
  · decide +kernel
  · decide +kernel
  · decide +kernel

/-- A concrete identity: "John0.D1@Mute.Berlin". -/
example : map uniW "John0.D1@Mute.Berlin".toList = .ok "iohno.dl@mute.berlin".toList ∧
    isMapped uniW "iohno.dl@mute.berlin".toList = true ∧
    isMapped uniW "john@mute.berlin".toList = false := by
  decide +kernel

end Verif.Ident

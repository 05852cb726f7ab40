/-
Properties of the helper packages: C20, C31, C56, C57, C58 and C63.
-/
import Verif.Util.Model
import Verif.Msg.Encrypt

namespace Verif.Util
open Verif.Msg

/-! ### C56 digits.Count -/

/-- The reported number is the length of the decimal representation. -/
theorem C56_digits_count (u : UInt64) : digitsCount u = (toString u.toNat).length := by
  have hle : ∀ k, 0 < k → ((Nat.repr u.toNat).length ≤ k ↔ u.toNat < 10 ^ k) :=
    fun k hk => Nat.length_repr_le_iff hk
  have hpos := @Nat.length_repr_pos u.toNat
  have hu := u.toNat_lt
  rw [Nat.toString_eq_repr]
  generalize (Nat.repr u.toNat).length = n at hle hpos ⊢
  have key : ∀ k, 0 < k → u.toNat < 10 ^ k → (k = 1 ∨ 10 ^ (k - 1) ≤ u.toNat) → k = n := by
    intro k hk hlt hge
    have h1 : n ≤ k := (hle k hk).mpr hlt
    rcases hge with rfl | hge
    · omega
    · rcases Nat.lt_or_ge 1 k with hk1 | hk1
      · rcases Nat.lt_or_ge (k - 1) n with h | h
        · omega
        · exact absurd ((hle (k - 1) (by omega)).mp h) (by omega)
      · omega
  unfold digitsCount
  simp only [UInt64.lt_iff_toNat_lt, UInt64.reduceToNat]
  generalize u.toNat = m at hu key
  clear hle
  have ite : ∀ {c : Prop} [Decidable c] {a b : Nat}, (c → a = n) → (¬c → b = n) →
      (if c then a else b) = n := by
    intro c _ a b h1 h2
    by_cases h : c
    · rw [if_pos h]; exact h1 h
    · rw [if_neg h]; exact h2 h
  iterate 19
    refine ite (fun h => key _ (by decide) (by omega) (by omega)) (fun _ => ?_)
  exact key _ (by decide) (by omega) (by omega)

example : digitsCount 18446744073709551615 = 20 ∧ digitsCount 0 = 1 ∧ digitsCount 999 = 3 := by
  decide

/-! ### C57 wallet.GetToken -/

/-- Time slept by the first `n` retries. -/
def sleepSum (n : Nat) : Nat := ((List.range n).map backoffDur).sum

theorem sleepSum_succ (n : Nat) : sleepSum (n + 1) = sleepSum n + backoffDur n := by
  simp [sleepSum, List.range_succ]

theorem sleepSum_mono {a b : Nat} (h : a ≤ b) : sleepSum a ≤ sleepSum b := by
  induction h with
  | refl => exact Nat.le_refl _
  | step _ ih => rw [sleepSum_succ]; omega

theorem sleepSum_68 : maxTokenWait ≤ sleepSum 68 := by decide +kernel
theorem sleepSum_67 : sleepSum 67 < maxTokenWait := by decide +kernel

theorem pollLoop_spec {τ ε : Type} (r : Nat → Reply τ ε) (n total : Nat)
    (ht : total = sleepSum n) (hn : total < maxTokenWait) (hr : ∀ i, i ≤ n → r i = .retry) :
    let p := pollLoop r n total
    2 ≤ p.calls ∧ p.calls ≤ 69 ∧ (∀ i, i + 1 < p.calls → r i = .retry) ∧
      p.last = r (p.calls - 1) ∧ p.slept = sleepSum (p.calls - 1) ∧
      (p.last = .retry → maxTokenWait ≤ p.slept) := by
  have hbound : n + 1 ≤ 68 := by
    rcases Nat.lt_or_ge n 68 with h | h
    · omega
    · have := sleepSum_mono h
      have := sleepSum_68
      omega
  have hs : total + backoffDur n = sleepSum (n + 1) := by rw [sleepSum_succ, ht]
  unfold pollLoop
  simp only [hs]
  cases hrep : r (n + 1) with
  | retry =>
    dsimp only
    split
    · rename_i hmax
      refine ⟨by simp, by simp; omega, ?_, ?_, rfl, fun _ => hmax⟩
      · intro i hi
        simp only at hi
        exact hr i (by omega)
      · exact hrep.symm
    · rename_i hmax
      refine pollLoop_spec r (n + 1) (sleepSum (n + 1)) rfl (by omega) ?_
      intro i hi
      rcases Nat.lt_or_ge i (n + 1) with h | h
      · exact hr i (by omega)
      · have : i = n + 1 := by omega
        rw [this, hrep]
  | token t =>
    refine ⟨by simp, by simp; omega, ?_, ?_, rfl, by simp⟩
    · intro i hi
      simp only at hi
      exact hr i (by omega)
    · exact hrep.symm
  | fail e =>
    refine ⟨by simp, by simp; omega, ?_, ?_, rfl, by simp⟩
    · intro i hi
      simp only at hi
      exact hr i (by omega)
    · exact hrep.symm
  termination_by maxTokenWait - total
  decreasing_by
    have := backoffDur_pos n
    omega

/-- For every sequence of wallet replies: at most 69 attempts are made; the
outcome is the reply to the last attempt; every earlier reply asked for a
retry, so the first decisive reply ends the polling at once; and if the polling
gives up while still being asked to retry, at least five minutes were spent
waiting. -/
theorem C57_wallet_polling {τ ε : Type} (replies : Nat → Reply τ ε) :
    let p := getToken replies
    1 ≤ p.calls ∧ p.calls ≤ 69 ∧
      p.last = replies (p.calls - 1) ∧
      (∀ i, i + 1 < p.calls → replies i = .retry) ∧
      p.slept = ((List.range (p.calls - 1)).map backoffDur).sum ∧
      (p.last = .retry → 300 * 1000000000 ≤ p.slept) := by
  cases h0 : replies 0 with
  | token t => simp [getToken, h0]
  | fail e => simp [getToken, h0]
  | retry =>
    have h := pollLoop_spec replies 0 0 rfl (by decide) (by
      intro i hi
      obtain rfl : i = 0 := by omega
      exact h0)
    simp only [getToken, h0]
    obtain ⟨a, b, c, d, e, f⟩ := h
    exact ⟨by omega, b, d, c, e, f⟩

/-- The bound is attained, and it depends on the wallet always answering retry. -/
example : (getToken (τ := Unit) (ε := Unit) fun _ => .retry).calls = 69 := by
  have h := C57_wallet_polling (τ := Unit) (ε := Unit) fun _ => .retry
  obtain ⟨h1, h2, h3, -, h5, h6⟩ := h
  have h7 := h6 h3
  rcases Nat.lt_or_ge (getToken (τ := Unit) (ε := Unit) fun _ => .retry).calls 69 with h | h
  · have := sleepSum_mono (show (getToken (τ := Unit) (ε := Unit) fun _ => .retry).calls - 1 ≤ 67 by omega)
    have := sleepSum_67
    unfold maxTokenWait at this
    unfold sleepSum at *
    omega
  · omega

/-! ### C58 fuzzer -/

/-- Bit `p` of a byte string, counting from the low bit of the first byte. -/
def bitAt (d : Bytes) (p : Nat) : Bool := ((d.getD (p / 8) 0).toNat).testBit (p % 8)

/-- `x` differs from `d` in bit `p` and nowhere else. -/
def FlipsOnly (d x : Bytes) (p : Nat) : Prop :=
  x.length = d.length ∧ ∀ q, q < 8 * d.length → bitAt x q = (bitAt d q ^^ decide (q = p))

theorem switchBit_length (d : Bytes) (p : Nat) : (switchBit d p).length = d.length := by
  simp [switchBit]

theorem testBit_flip (b : UInt8) (i j : Nat) (hj : j < 8) :
    (b ^^^ UInt8.ofNat (2 ^ j)).toNat.testBit i = (b.toNat.testBit i ^^ decide (i = j)) := by
  have h : (UInt8.ofNat (2 ^ j)).toNat = 2 ^ j := by
    have : 2 ^ j < 2 ^ 8 := Nat.pow_lt_pow_right (by decide) hj
    simp only [UInt8.toNat_ofNat']
    exact Nat.mod_eq_of_lt this
  rw [UInt8.toNat_xor, h, Nat.testBit_xor, Nat.testBit_two_pow]
  simp only [eq_comm]

theorem switchBit_flips (d : Bytes) (p : Nat) : FlipsOnly d (switchBit d p) p := by
  refine ⟨switchBit_length d p, ?_⟩
  intro q hq
  have hq8 : q / 8 < d.length := by omega
  unfold bitAt switchBit
  rw [List.getD_eq_getElem?_getD, List.getD_eq_getElem?_getD, List.getElem?_modify]
  by_cases h : p / 8 = q / 8
  · rw [List.getElem?_eq_getElem hq8]
    simp only [h, if_true, Option.map_eq_map, Option.map_some, Option.getD_some]
    rw [testBit_flip _ _ _ (by omega)]
    congr 1
    simp only [decide_eq_decide]
    constructor
    · intro h2; omega
    · rintro rfl; rfl
  · simp only [h, if_false, Option.map_eq_map, Option.map_id']
    have : q ≠ p := by rintro rfl; exact h rfl
    simp [this]

theorem byte_ext {a b : UInt8} (h : ∀ i, i < 8 → a.toNat.testBit i = b.toNat.testBit i) : a = b := by
  apply UInt8.toNat_inj.mp
  apply Nat.eq_of_testBit_eq
  intro i
  rcases Nat.lt_or_ge i 8 with hi | hi
  · exact h i hi
  · have ha : a.toNat < 2 ^ i :=
      Nat.lt_of_lt_of_le a.toNat_lt (Nat.pow_le_pow_right (by decide) hi)
    have hb : b.toNat < 2 ^ i :=
      Nat.lt_of_lt_of_le b.toNat_lt (Nat.pow_le_pow_right (by decide) hi)
    rw [Nat.testBit_lt_two_pow ha, Nat.testBit_lt_two_pow hb]

theorem bits_ext {x y : Bytes} (hl : x.length = y.length)
    (h : ∀ q, q < 8 * x.length → bitAt x q = bitAt y q) : x = y := by
  apply List.ext_getElem hl
  intro i hi hi'
  apply byte_ext
  intro j hj
  have := h (8 * i + j) (by omega)
  unfold bitAt at this
  rw [show (8 * i + j) / 8 = i by omega, show (8 * i + j) % 8 = j by omega] at this
  simpa [List.getD_eq_getElem?_getD, List.getElem?_eq_getElem hi,
    List.getElem?_eq_getElem hi'] using this

theorem flips_unique {d x y : Bytes} {p : Nat} (hx : FlipsOnly d x p) (hy : FlipsOnly d y p) :
    x = y := by
  apply bits_ext (hx.1.trans hy.1.symm)
  intro q hq
  rw [hx.2 q (by rw [← hx.1]; exact hq), hy.2 q (by rw [← hx.1]; exact hq)]

theorem flips_pos_inj {d x : Bytes} {p q : Nat} (hp : p < 8 * d.length)
    (h1 : FlipsOnly d x p) (h2 : FlipsOnly d x q) : p = q := by
  have := (h1.2 p hp).symm.trans (h2.2 p hp)
  by_cases h : p = q
  · exact h
  · simp [h] at this

theorem fuzzLoop_spec {ε : Type} (test : Bytes → Bytes × Option ε) (is : List Nat) (r : FuzzRun ε)
    (d : Bytes) (hd : r.heap.head? = some d) :
    let r' := fuzzLoop test is r
    r'.heap.head? = some d ∧ r'.presented = r.presented ++ is.map (switchBit d) ∧
      r'.errors = r.errors ++ is.map (fun i => (test (switchBit d i)).2) := by
  induction is generalizing r with
  | nil => simp [fuzzLoop, hd]
  | cons i is ih =>
    have hh : r.heap.headD [] = d := by
      rw [List.headD_eq_head?_getD, hd]; rfl
    have := ih ⟨r.heap ++ [(test (switchBit d i)).1], r.presented ++ [switchBit d i],
      r.errors ++ [(test (switchBit d i)).2]⟩ (by
        dsimp only
        cases hr : r.heap with
        | nil => rw [hr] at hd; cases hd
        | cons a as => rw [hr] at hd; exact hd)
    simp only [fuzzLoop, hh]
    simpa using this

/-- With the default range, and whatever the test function does to the buffers
it is handed, the fuzzer presents exactly the inputs that differ from the data
in one single bit, each of them once, leaves the data as it was, and reports
success exactly if every such input produced an error. -/
theorem C58_fuzz_all_single_bits {ε : Type} (data : Bytes) (hd : data ≠ [])
    (test : Bytes → Bytes × Option ε) :
    ∃ verdict run, fuzz data 0 0 test = .ok (verdict, run) ∧
      (∀ x, x ∈ run.presented ↔ ∃ p, p < 8 * data.length ∧ FlipsOnly data x p) ∧
      run.presented.Nodup ∧
      run.presented.length = 8 * data.length ∧
      run.heap.head? = some data ∧
      (verdict = true ↔
        ∀ x p, p < 8 * data.length → FlipsOnly data x p → (test x).2.isSome = true) := by
  have hlen : 0 < data.length := List.length_pos_iff.mpr hd
  let run := fuzzLoop test (List.range' 0 (data.length * 8)) ⟨[data], [], []⟩
  obtain ⟨s1, s2, s3⟩ := fuzzLoop_spec test (List.range' 0 (data.length * 8)) ⟨[data], [], []⟩ data rfl
  simp only [List.nil_append] at s2 s3
  have hpres : ∀ x, x ∈ run.presented ↔ ∃ p, p < 8 * data.length ∧ FlipsOnly data x p := by
    intro x
    show x ∈ (fuzzLoop _ _ _).presented ↔ _
    rw [s2, List.mem_map]
    constructor
    · rintro ⟨p, hp, rfl⟩
      rw [List.mem_range'_1] at hp
      exact ⟨p, by omega, switchBit_flips data p⟩
    · rintro ⟨p, hp, hx⟩
      exact ⟨p, by rw [List.mem_range'_1]; omega, flips_unique (switchBit_flips data p) hx⟩
  refine ⟨run.errors.length == (run.errors.filter Option.isSome).length, run, ?_, hpres, ?_, ?_,
    s1, ?_⟩
  · unfold fuzz
    rw [if_neg hd]
    have e2 : ¬ ((0 : Int) < 0 ∨ (0 : Int) > data.length * 8) := by omega
    simp only [or_true, if_true, if_neg e2]
    rw [if_neg (by omega)]
    have e3 : ((data.length : Int) * 8 - 0).toNat = data.length * 8 := by omega
    rw [e3]
    rfl
  · show (fuzzLoop _ _ _).presented.Nodup
    rw [s2]
    rw [List.Nodup, List.pairwise_map]
    have := (List.nodup_range' : (List.range' 0 (data.length * 8)).Nodup)
    refine List.Pairwise.imp_of_mem ?_ this
    intro a b ha hb hab heq
    rw [List.mem_range'_1] at ha hb
    exact hab (flips_pos_inj (by omega) (heq ▸ switchBit_flips data a) (switchBit_flips data b))
  · show (fuzzLoop _ _ _).presented.length = _
    rw [s2]; simp; omega
  · show ((fuzzLoop _ _ _).errors.length == ((fuzzLoop _ _ _).errors.filter Option.isSome).length)
      = true ↔ _
    rw [s3, beq_iff_eq, eq_comm, List.length_filter_eq_length_iff]
    constructor
    · intro h x p hp hx
      obtain rfl := flips_unique (switchBit_flips data p) hx
      exact h _ (List.mem_map.mpr ⟨p, by rw [List.mem_range'_1]; omega, rfl⟩)
    · intro h e he
      obtain ⟨p, hp, rfl⟩ := List.mem_map.mp he
      rw [List.mem_range'_1] at hp
      exact h _ p (by omega) (switchBit_flips data p)

/-- For an explicit range of bit positions inside the data, exactly the inputs
that differ in one bit of that range are presented, in order of the positions. -/
theorem C58_fuzz_range {ε : Type} (data : Bytes) (start stop : Nat) (h0 : 0 < stop)
    (h1 : start ≤ stop) (h2 : stop ≤ 8 * data.length) (test : Bytes → Bytes × Option ε) :
    ∃ verdict run, fuzz data start stop test = .ok (verdict, run) ∧
      run.presented.length = stop - start ∧
      (∀ i, i < stop - start → ∃ x, run.presented[i]? = some x ∧ FlipsOnly data x (start + i)) ∧
      run.heap.head? = some data := by
  have hd : data ≠ [] := by rintro rfl; simp at h2; omega
  obtain ⟨s1, s2, s3⟩ := fuzzLoop_spec test (List.range' start (stop - start)) ⟨[data], [], []⟩ data rfl
  refine ⟨((fuzzLoop test (List.range' start (stop - start)) ⟨[data], [], []⟩).errors.length ==
    ((fuzzLoop test (List.range' start (stop - start)) ⟨[data], [], []⟩).errors.filter
      Option.isSome).length), fuzzLoop test (List.range' start (stop - start)) ⟨[data], [], []⟩,
    ?_, ?_, ?_, s1⟩
  · unfold fuzz
    rw [if_neg hd]
    have e1 : ¬ ((stop : Int) > data.length * 8 ∨ (stop : Int) = 0) := by omega
    have e2 : ¬ ((start : Int) < 0 ∨ (start : Int) > data.length * 8) := by omega
    simp only [if_neg e1, if_neg e2]
    rw [if_neg (by omega)]
    have e3 : ((stop : Int) - start).toNat = stop - start := by omega
    rw [e3]
    rfl
  · rw [s2]; simp
  · intro i hi
    refine ⟨switchBit data (start + i), ?_, switchBit_flips _ _⟩
    rw [s2, List.nil_append, List.getElem?_map, List.getElem?_range' hi]
    simp

/-- A concrete run with a test function that overwrites its argument. -/
example : (match fuzz [0x0f] 0 0 (fun x => (([] : Bytes), if x = [0x0e] then none else some ())) with
    | .ok (v, r) => v == false && r.presented == [[14], [13], [11], [7], [31], [47], [79], [143]]
        && r.heap.head? == some [15]
    | _ => false) = true := by decide

/-! ### C31 mail bodies -/

theorem splitLines_flatten (w : Nat) (hw : 0 < w) (s : Bytes) :
    (splitLines w hw s).flatten = s := by
  induction s using splitLines.induct (width := w) hw with
  | case1 h => simp [splitLines]
  | case2 s h1 h2 => unfold splitLines; simp [h1, h2]
  | case3 s h ih => unfold splitLines; simp [h, ih]

theorem splitLines_bounds (w : Nat) (hw : 0 < w) (s : Bytes) :
    ∀ l ∈ splitLines w hw s, 0 < l.length ∧ l.length ≤ w := by
  induction s using splitLines.induct (width := w) hw with
  | case1 h => simp [splitLines]
  | case2 s h1 h2 =>
    unfold splitLines
    simp only [h1, h2, if_true, if_false, List.mem_singleton, forall_eq, and_true]
    exact List.length_pos_iff.mpr h2
  | case3 s h ih =>
    unfold splitLines
    simp only [h, if_false, List.mem_cons, forall_eq_or_imp]
    exact ⟨by simp; omega, ih⟩

theorem filter_intercalate (lines : List Bytes) (h : ∀ l ∈ lines, ∀ c ∈ l, Base64.isBreak c = false) :
    (crlf.intercalate lines).filter (fun c => !Base64.isBreak c) = lines.flatten := by
  match lines, h with
  | [], _ => rfl
  | [a], h =>
    simp only [List.intercalate, List.intersperse, List.flatten_cons, List.flatten_nil,
      List.append_nil]
    exact Base64.filter_noBreak (h a (by simp))
  | a :: b :: rest, h =>
    have ih := filter_intercalate (b :: rest) (fun l hl => h l (List.mem_cons_of_mem _ hl))
    have e : crlf.intercalate (a :: b :: rest) = a ++ crlf ++ crlf.intercalate (b :: rest) := by
      simp [List.intercalate, List.intersperse]
    rw [e, List.filter_append, List.filter_append, ih, Base64.filter_noBreak (h a (by simp))]
    simp [crlf, Base64.isBreak]

/-- Line splitting is lossless and bounded: for every body and every positive
width, the output is a list of lines joined by line breaks, no line is longer
than the width and none is empty (unless the body is), and the lines put
together are the body. If the body has no line breaks itself, deleting all
line breaks from the output returns it. -/
theorem C31_split_lines (body : Bytes) (width : Nat) (hw : 0 < width) :
    (∃ lines : List Bytes, splitMaxLine body width hw = crlf.intercalate lines ∧
      lines.flatten = body ∧ (∀ l ∈ lines, l.length ≤ width ∧ (l = [] → body = []))) ∧
    ((∀ c ∈ body, c ≠ 10 ∧ c ≠ 13) →
      (splitMaxLine body width hw).filter (fun c => c ≠ 10 && c ≠ 13) = body) := by
  have heq : (fun c : UInt8 => (decide (c ≠ 10) && decide (c ≠ 13))) = fun c => !Base64.isBreak c := by
    funext c
    by_cases h1 : c = 10 <;> by_cases h2 : c = 13 <;> simp [Base64.isBreak, h1, h2]
  constructor
  · by_cases h : body.length ≤ width
    · refine ⟨[body], ?_, by simp, by simpa using h⟩
      simp [splitMaxLine, h, List.intercalate]
    · refine ⟨splitLines width hw body, by simp [splitMaxLine, h], splitLines_flatten _ _ _, ?_⟩
      intro l hl
      have := splitLines_bounds width hw body l hl
      refine ⟨this.2, ?_⟩
      rintro rfl
      exact absurd this.1 (by simp)
  · intro hb
    have hb' : ∀ c ∈ body, Base64.isBreak c = false := by
      intro c hc
      have := hb c hc
      simp [Base64.isBreak, this.1, this.2]
    rw [heq]
    unfold splitMaxLine
    split
    · exact Base64.filter_noBreak hb'
    · rw [filter_intercalate _ ?_, splitLines_flatten]
      intro l hl c hc
      apply hb' c
      rw [← splitLines_flatten width hw body]
      exact List.mem_flatten.mpr ⟨l, hl, hc⟩

/-- What `WriteMail` puts into the body is read back by `ReadMail` as the
original bytes, unless the encoded text exceeds the size limit, in which case
it is refused. -/
theorem C31_mail_body_round_trip (body : Bytes) :
    readMailBody (writeMailBody body) =
      if (writeMailBody body).length > maxMailSize then .err .maxSize else .ok body := by
  unfold readMailBody
  split
  · rfl
  · have h := (C31_split_lines (Base64.encode body) 72 (by decide)).2 (by
      intro c hc
      have := Base64.encode_noBreak body c hc
      simpa [Base64.isBreak] using this)
    have heq : (fun c : UInt8 => (decide (c ≠ 10) && decide (c ≠ 13))) =
        fun c => !Base64.isBreak c := by
      funext c
      by_cases h1 : c = 10 <;> by_cases h2 : c = 13 <;> simp [Base64.isBreak, h1, h2]
    rw [heq] at h
    have : Base64.decode (writeMailBody body) = some body := Base64.decode_of_filter h
    rw [this]

/-- A body of two hundred bytes is split into lines and read back. -/
example : (writeMailBody (List.replicate 200 7)).length = 274 ∧
    readMailBody (writeMailBody (List.replicate 200 7)) = .ok (List.replicate 200 7) := by
  decide +kernel

/-! ### C20 hash chain entries -/

/-- The six fields of an entry put together. -/
def Entry.bytes (e : Entry) : Bytes :=
  e.hash ++ e.typ ++ e.nonce ++ e.hashID ++ e.crUID ++ e.uidIndex

/-- The field widths of the specification
(HASH 32, TYPE 1, NONCE 8, HashID 32, CrUID 48, UIDIndex 32). -/
def Entry.Widths (e : Entry) : Prop :=
  e.hash.length = 32 ∧ e.typ.length = 1 ∧ e.nonce.length = 8 ∧ e.hashID.length = 32 ∧
    e.crUID.length = 48 ∧ e.uidIndex.length = 32

theorem drop_take_mid (a b c : Bytes) (i j : Nat) (hi : a.length = i) (hj : i + b.length = j) :
    ((a ++ b ++ c).take j).drop i = b := by
  rw [List.take_left' (by simp; omega), List.drop_left' hi]

/-- Splitting an entry built from six fields of the right widths returns these
fields, if the type is the current one, and rejects it otherwise. -/
theorem C20_split_entry (e : Entry) (hw : e.Widths) :
    splitEntry (Base64.encode e.bytes) = if e.typ = [1] then .ok e else .err .typ := by
  obtain ⟨hash, typ, nonce, hashID, crUID, uidIndex⟩ := e
  obtain ⟨h1, h2, h3, h4, h5, h6⟩ := hw
  simp only at h1 h2 h3 h4 h5 h6
  unfold splitEntry
  rw [Base64.decode_encode]
  have tl : (hash ++ typ ++ nonce ++ hashID ++ crUID ++ uidIndex).length = 153 := by simp; omega
  have t1 : (hash ++ typ ++ nonce ++ hashID ++ crUID ++ uidIndex).take 32 = hash := by
    simp only [List.append_assoc]; exact List.take_left' h1
  have t2 : ((hash ++ typ ++ nonce ++ hashID ++ crUID ++ uidIndex).take 33).drop 32 = typ := by
    have := drop_take_mid hash typ (nonce ++ (hashID ++ (crUID ++ uidIndex))) 32 33 h1 (by omega)
    simpa only [List.append_assoc] using this
  have t3 : ((hash ++ typ ++ nonce ++ hashID ++ crUID ++ uidIndex).take 41).drop 33 = nonce := by
    have := drop_take_mid (hash ++ typ) nonce (hashID ++ (crUID ++ uidIndex)) 33 41
      (by simp; omega) (by omega)
    simpa only [List.append_assoc] using this
  have t4 : ((hash ++ typ ++ nonce ++ hashID ++ crUID ++ uidIndex).take 73).drop 41 = hashID := by
    have := drop_take_mid (hash ++ typ ++ nonce) hashID (crUID ++ uidIndex) 41 73
      (by simp; omega) (by omega)
    simpa only [List.append_assoc] using this
  have t5 : ((hash ++ typ ++ nonce ++ hashID ++ crUID ++ uidIndex).take 121).drop 73 = crUID := by
    have := drop_take_mid (hash ++ typ ++ nonce ++ hashID) crUID uidIndex 73 121
      (by simp; omega) (by omega)
    simpa only [List.append_assoc] using this
  have t6 : (hash ++ typ ++ nonce ++ hashID ++ crUID ++ uidIndex).drop 121 = uidIndex :=
    List.drop_left' (by simp; omega)
  simp only [Entry.bytes, tl, t1, t2, t3, t4, t5, t6, ne_eq, not_true_eq_false, if_false]
  by_cases ht : typ = [1] <;> simp [ht]

/-- For every string: splitting never panics; it succeeds exactly if the string
is the base64 form of 153 bytes with type 1, and then the fields have the
specified widths and are, in order, the decoded bytes. In particular entries of
any other length are rejected. -/
theorem C20_split_entry_exact (s : Bytes) :
    splitEntry s ≠ .panic ∧
    (∀ e, splitEntry s = .ok e ↔
      (e.Widths ∧ e.typ = [1] ∧ Base64.decode s = some e.bytes)) := by
  constructor
  · unfold splitEntry
    cases Base64.decode s with
    | none => simp
    | some b =>
      dsimp only
      split
      · simp
      · split <;> simp
  · intro e
    constructor
    · intro h
      unfold splitEntry at h
      cases hd : Base64.decode s with
      | none => rw [hd] at h; cases h
      | some b =>
        rw [hd] at h
        dsimp only at h
        split at h
        · cases h
        · rename_i hl
          simp only [ne_eq, Decidable.not_not] at hl
          split at h
          · cases h
          · rename_i ht
            simp only [ne_eq, Decidable.not_not] at ht
            simp only [Res.ok.injEq] at h
            subst h
            refine ⟨⟨?_, ?_, ?_, ?_, ?_, ?_⟩, ht, ?_⟩
            · simp; omega
            · simp; omega
            · simp; omega
            · simp; omega
            · simp; omega
            · simp; omega
            · simp only [Entry.bytes, Option.some.injEq]
              have step : ∀ i j, i ≤ j → b.take i ++ (b.take j).drop i = b.take j := by
                intro i j hij
                have := List.take_append_drop i (b.take j)
                rwa [List.take_take, Nat.min_eq_left hij] at this
              rw [step 32 33 (by omega), step 33 41 (by omega), step 41 73 (by omega),
                step 73 121 (by omega), List.take_append_drop]
    · rintro ⟨hw, ht, hd⟩
      have := C20_split_entry e hw
      unfold splitEntry at this ⊢
      rw [Base64.decode_encode] at this
      rw [hd]
      rw [this, if_pos ht]

/-- The published test entry (hashchain.go:16) meets the hypotheses: its text
has the documented 204 characters and splits. -/
example : (Entry.Widths ⟨List.replicate 32 1, [1], List.replicate 8 2, List.replicate 32 3,
    List.replicate 48 4, List.replicate 32 5⟩) ∧
    (Base64.encode (List.replicate 153 1)).length = 204 := by
  refine ⟨⟨rfl, rfl, rfl, rfl, rfl, rfl⟩, by decide +kernel⟩

/-! ### C63 message IDs -/

theorem cutDash_append (a b : Bytes) (h : ∀ c ∈ a, c ≠ 45) : cutDash (a ++ 45 :: b) = some (a, b) := by
  induction a with
  | nil => simp [cutDash]
  | cons x xs ih =>
    have hx : x ≠ 45 := h x (by simp)
    simp [cutDash, hx, ih (fun c hc => h c (List.mem_cons_of_mem _ hc))]

theorem hexDigit_ne_dash : ∀ n, n < 16 → hexDigit n ≠ 45 := by decide

theorem hex_ne_dash (b : Bytes) : ∀ c ∈ hex b, c ≠ 45 := by
  intro c hc
  obtain ⟨x, -, hx⟩ := List.mem_flatMap.mp hc
  have := x.toNat_lt
  simp only [List.mem_cons, List.not_mem_nil, or_false] at hx
  rcases hx with rfl | rfl
  · exact hexDigit_ne_dash _ (by omega)
  · exact hexDigit_ne_dash _ (by omega)

/-- Parsing a generated message ID returns the sender, whatever the sender
contains (dashes included); year and month are digits. -/
theorem C63_message_id_sender (year month random sender : Bytes)
    (hy : ∀ c ∈ year, 48 ≤ c ∧ c ≤ 57) (hm : ∀ c ∈ month, 48 ≤ c ∧ c ≤ 57) :
    parseMsgID (genMsgID year month random sender) = sender := by
  have digit : ∀ c : UInt8, 48 ≤ c ∧ c ≤ 57 → c ≠ 45 := by
    rintro c ⟨h, -⟩ rfl
    exact absurd h (by decide)
  have e : genMsgID year month random sender =
      year ++ 45 :: (month ++ 45 :: (hex random ++ 45 :: sender)) := by simp [genMsgID]
  unfold parseMsgID
  rw [e, cutDash_append _ _ (fun c hc => digit c (hy c hc))]
  dsimp only
  rw [cutDash_append _ _ (fun c hc => digit c (hm c hc))]
  dsimp only
  rw [cutDash_append _ _ (hex_ne_dash random)]

theorem hexDigit_inj : ∀ m, m < 16 → ∀ n, n < 16 → hexDigit m = hexDigit n → m = n := by decide

theorem hex_inj {a b : Bytes} (h : hex a = hex b) : a = b := by
  induction a generalizing b with
  | nil =>
    cases b with
    | nil => rfl
    | cons y ys => simp [hex] at h
  | cons x xs ih =>
    cases b with
    | nil => simp [hex] at h
    | cons y ys =>
      have hx := x.toNat_lt
      have hy := y.toNat_lt
      simp only [hex, List.flatMap_cons, List.cons_append, List.nil_append, List.cons.injEq] at h
      obtain ⟨h1, h2, h3⟩ := h
      have e1 := hexDigit_inj _ (by omega) _ (by omega) h1
      have e2 := hexDigit_inj _ (by omega) _ (by omega) h2
      have : x = y := UInt8.toNat_inj.mp (by omega)
      rw [this, ih h3]

theorem hex_length (b : Bytes) : (hex b).length = 2 * b.length := by
  induction b with
  | nil => rfl
  | cons x xs ih =>
    simp only [hex, List.flatMap_cons, List.length_append, List.length_cons, List.length_nil] at ih ⊢
    omega

/-- Two generated message IDs are equal only if the random part and the sender
are equal. -/
theorem C63_message_id_unique (y1 m1 r1 s1 y2 m2 r2 s2 : Bytes)
    (hy1 : ∀ c ∈ y1, 48 ≤ c ∧ c ≤ 57) (hm1 : ∀ c ∈ m1, 48 ≤ c ∧ c ≤ 57)
    (hy2 : ∀ c ∈ y2, 48 ≤ c ∧ c ≤ 57) (hm2 : ∀ c ∈ m2, 48 ≤ c ∧ c ≤ 57)
    (h : genMsgID y1 m1 r1 s1 = genMsgID y2 m2 r2 s2) : r1 = r2 ∧ s1 = s2 := by
  have digit : ∀ c : UInt8, 48 ≤ c ∧ c ≤ 57 → c ≠ 45 := by
    rintro c ⟨h, -⟩ rfl
    exact absurd h (by decide)
  have e : ∀ y m r s, genMsgID y m r s = y ++ 45 :: (m ++ 45 :: (hex r ++ 45 :: s)) := by
    intros; simp [genMsgID]
  rw [e, e] at h
  have h1 := congrArg cutDash h
  rw [cutDash_append _ _ (fun c hc => digit c (hy1 c hc)),
    cutDash_append _ _ (fun c hc => digit c (hy2 c hc))] at h1
  simp only [Option.some.injEq, Prod.mk.injEq] at h1
  have h2 := congrArg cutDash h1.2
  rw [cutDash_append _ _ (fun c hc => digit c (hm1 c hc)),
    cutDash_append _ _ (fun c hc => digit c (hm2 c hc))] at h2
  simp only [Option.some.injEq, Prod.mk.injEq] at h2
  have h3 := congrArg cutDash h2.2
  rw [cutDash_append _ _ (hex_ne_dash r1), cutDash_append _ _ (hex_ne_dash r2)] at h3
  simp only [Option.some.injEq, Prod.mk.injEq] at h3
  exact ⟨hex_inj h3.1, h3.2⟩

/-- "2015-07-…-a-b@c" with dashes in the sender. -/
example : parseMsgID (genMsgID [50, 48, 49, 53] [48, 55] [1, 255] [97, 45, 98, 64, 99]) =
    [97, 45, 98, 64, 99] := by decide

end Verif.Util

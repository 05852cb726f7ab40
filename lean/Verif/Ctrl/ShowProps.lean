/-
How messages are shown: proofs.
-/
import Verif.Ctrl.Show

set_option autoImplicit false

namespace Verif.Ctrl.Show
open Verif.Sql Verif.Msgdb Verif.Ctrl.Transfer

/-! ### encoded words -/

theorem forall_byte {p : UInt8 → Prop} (h : ∀ n : Fin 256, p (UInt8.ofNat n.val)) (b : UInt8) : p b := by
  have := h ⟨b.toNat, b.toNat_lt⟩
  simpa using this

theorem hex_byte : ∀ b : UInt8, unhex (hexDigit (b / 16)) = some (b / 16) ∧ unhex (hexDigit (b % 16)) = some (b % 16) ∧ 16 * (b / 16) + b % 16 = b :=
  forall_byte (by decide +kernel)

theorem qByte_chars : ∀ b : UInt8, ∀ c ∈ qByte b, 33 ≤ c ∧ c ≤ 126 ∧ c ≠ 63 :=
  forall_byte (by decide +kernel)

theorem plain_facts : ∀ b : UInt8, plainByte b = true → b ≠ 61 ∧ b ≠ 63 ∧ b ≠ 32 ∧ b ≠ 95 :=
  forall_byte (by decide +kernel)

theorem unQ_qByte (b : UInt8) (s : Bytes) : unQ (qByte b ++ s) = (unQ s).map (b :: ·) := by
  unfold qByte
  split
  · rename_i h; subst h
    simp only [List.cons_append, List.nil_append]
    rw [unQ.eq_3 _ _ (by intro a b s h; cases h)]
    simp
  split
  · rename_i h1 h2
    obtain ⟨h3, h4, h5, h6⟩ := plain_facts b h2
    simp only [List.cons_append, List.nil_append]
    rw [unQ.eq_3 _ _ (by intro a c s h; exact absurd h h3)]
    simp [h3, h4, h5, h6]
  · obtain ⟨h1, h2, h3⟩ := hex_byte b
    simp only [List.cons_append, List.nil_append, unQ, h1, h2]
    cases unQ s <;> simp [h3]

theorem unQ_qString (s : Bytes) : unQ (qString s) = some s := by
  induction s with
  | nil => rfl
  | cons b s ih =>
    have : qString (b :: s) = qByte b ++ qString s := rfl
    rw [this, unQ_qByte, ih]; rfl

theorem qString_append (a b : Bytes) : qString (a ++ b) = qString a ++ qString b := List.flatMap_append

theorem qString_chars {s : Bytes} : ∀ c ∈ qString s, 33 ≤ c ∧ c ≤ 126 ∧ c ≠ 63 := by
  intro c hc
  obtain ⟨b, _, hb⟩ := List.mem_flatMap.mp hc
  exact qByte_chars b c hb

theorem qString_space (s : Bytes) : 32 ∉ qString s := fun h => absurd (qString_chars _ h).1 (by decide)

theorem unWord_word (a : Bytes) : unWord (wordOpen ++ (qString a ++ wordClose)) = some a := by
  unfold unWord
  have hl : (wordOpen ++ (qString a ++ wordClose)).length = (qString a).length + 12 := by
    simp only [List.length_append, wordOpen, wordClose, List.length_cons, List.length_nil]; omega
  rw [if_pos]
  · have h1 : (wordOpen ++ (qString a ++ wordClose)).drop 10 = qString a ++ wordClose := rfl
    rw [h1, hl, Nat.add_sub_cancel, List.take_left]
    exact unQ_qString a
  · refine ⟨List.isPrefixOf_iff_prefix.mpr (List.prefix_append _ _), List.isSuffixOf_iff_suffix.mpr ?_, by omega⟩
    rw [← List.append_assoc]
    exact List.suffix_append _ _

theorem words_ne (s : Bytes) : words s ≠ [] := by
  cases s with
  | nil => nofun
  | cons c s =>
    unfold words
    split
    · nofun
    · split <;> nofun

theorem words_pre {p : Bytes} (hp : 32 ∉ p) (s : Bytes) : ∀ {l : Bytes} {ls : List Bytes}, words s = l :: ls → words (p ++ s) = (p ++ l) :: ls := by
  induction p with
  | nil => exact fun h => h
  | cons c p ih =>
    intro l ls h
    have hc : ¬ c = 32 := fun e => hp (e ▸ .head _)
    simp only [List.cons_append, words, if_neg hc, ih (fun h => hp (.tail _ h)) h]

theorem words_space (s : Bytes) : words (32 :: s) = [] :: words s := rfl

theorem words_plain {s : Bytes} (h : 32 ∉ s) : words s = [s] := by
  have := words_pre h [] (l := []) (ls := []) rfl
  simpa using this

theorem runeLen_pos (w : Bytes → Nat) (s : Bytes) : 1 ≤ runeLen w s := Nat.le_max_left ..

theorem qEncode_words (w : Bytes → Nat) (k : Nat) : ∀ (cur : Nat) (s pre : Bytes), s.length ≤ k → 32 ∉ pre →
    ∃ a rest b, words (pre ++ (qEncode w k cur s ++ wordClose)) = (pre ++ (qString a ++ wordClose)) :: rest ∧
      s = a ++ b ∧ showWords true rest = b := by
  induction k with
  | zero =>
    intro cur s pre hs hp
    have : s = [] := List.eq_nil_of_length_eq_zero (by omega)
    subst this
    refine ⟨[], [], [], ?_, rfl, rfl⟩
    exact words_plain (by simp only [qEncode, List.nil_append, List.mem_append, not_or]; exact ⟨hp, by decide⟩)
  | succ k ih =>
    intro cur s pre hs hp
    cases s with
    | nil =>
      refine ⟨[], [], [], ?_, rfl, rfl⟩
      exact words_plain (by simp only [qEncode, List.nil_append, List.mem_append, not_or]; exact ⟨hp, by decide⟩)
    | cons b s =>
      unfold qEncode
      simp only
      generalize hn : (if b = 32 ∨ plainByte b = true then 1 else runeLen w (b :: s)) = n
      generalize (if b = 32 ∨ plainByte b = true then 1 else 3 * n) = enc
      have hn1 : 1 ≤ n := by
        rw [← hn]; split
        · exact Nat.le_refl _
        · exact runeLen_pos _ _
      have hd : ((b :: s).drop n).length ≤ k := by
        rw [List.length_drop]; simp only [List.length_cons] at hs ⊢; omega
      split
      · have ho : 32 ∉ wordOpen ++ qString ((b :: s).take n) := by
          simp only [List.mem_append, not_or]; exact ⟨by decide, qString_space _⟩
        obtain ⟨a, rest, c, h1, h2, h3⟩ := ih enc ((b :: s).drop n) _ hd ho
        refine ⟨[], (wordOpen ++ (qString ((b :: s).take n ++ a) ++ wordClose)) :: rest, b :: s, ?_, rfl, ?_⟩
        · simp only [List.append_assoc, List.cons_append] at h1 ⊢
          rw [← List.append_assoc pre wordClose]
          have hpc : 32 ∉ pre ++ wordClose := by simp only [List.mem_append, not_or]; exact ⟨hp, by decide⟩
          rw [words_pre hpc _ (words_space _), h1, qString_append]
          simp [qString]
        · simp only [showWords, unWord_word, if_true, List.nil_append, h3]
          rw [List.append_assoc, ← h2, List.take_append_drop]
      · have ho : 32 ∉ pre ++ qString ((b :: s).take n) := by
          simp only [List.mem_append, not_or]; exact ⟨hp, qString_space _⟩
        obtain ⟨a, rest, c, h1, h2, h3⟩ := ih (cur + enc) ((b :: s).drop n) _ hd ho
        refine ⟨(b :: s).take n ++ a, rest, c, ?_, ?_, h3⟩
        · simp only [List.append_assoc, qString_append] at h1 ⊢
          exact h1
        · rw [List.append_assoc, ← h2, List.take_append_drop]

theorem decode_encoded (w : Bytes → Nat) (s : Bytes) : decodeHeader (wordOpen ++ (qEncode w s.length 0 s ++ wordClose)) = s := by
  obtain ⟨a, rest, b, h1, h2, h3⟩ := qEncode_words w s.length 0 s wordOpen (Nat.le_refl _) (by decide)
  unfold decodeHeader
  rw [h1]
  simp only [unWord_word, h3, h2]

theorem qEncode_chars (w : Bytes → Nat) (k : Nat) : ∀ (cur : Nat) (s : Bytes), ∀ c ∈ qEncode w k cur s, 32 ≤ c ∧ c ≤ 126 := by
  have hw : ∀ c ∈ wordOpen ++ wordClose ++ [32], 32 ≤ c ∧ c ≤ (126 : UInt8) := by decide
  have hq : ∀ (s : Bytes), ∀ c ∈ qString s, 32 ≤ c ∧ c ≤ (126 : UInt8) := by
    intro s c hc
    obtain ⟨h1, h2, _⟩ := qString_chars c hc
    exact ⟨UInt8.le_trans (by decide) h1, h2⟩
  induction k with
  | zero => intro cur s c hc; simp [qEncode] at hc
  | succ k ih =>
    intro cur s c hc
    cases s with
    | nil => simp [qEncode] at hc
    | cons b s =>
      unfold qEncode at hc
      dsimp only at hc
      generalize (if b = 32 ∨ plainByte b = true then 1 else runeLen w (b :: s)) = n at hc
      generalize (if b = 32 ∨ plainByte b = true then 1 else 3 * n) = enc at hc
      split at hc
      · simp only [List.mem_append, List.mem_cons] at hc
        rcases hc with hc | rfl | hc | hc | hc
        · exact hw c (by simp [hc])
        · decide
        · exact hw c (by simp [hc])
        · exact hq _ c hc
        · exact ih _ _ c hc
      · rcases List.mem_append.mp hc with hc | hc
        · exact hq _ c hc
        · exact ih _ _ c hc

/-! ### lines and cuts -/

theorem linesOf_cons {l : Bytes} (h : 10 ∉ l) (s : Bytes) : linesOf (l ++ 10 :: s) = l :: linesOf s := by
  induction l with
  | nil => simp [linesOf]
  | cons c l ih =>
    have hc : ¬ c = 10 := fun e => h (e ▸ .head _)
    simp only [List.cons_append, linesOf, if_neg hc, ih (fun h' => h (.tail _ h'))]

theorem cutAt_append {d : UInt8} {l : Bytes} (h : d ∉ l) (s : Bytes) : cutAt d (l ++ d :: s) = some (l, s) := by
  induction l with
  | nil => simp [cutAt]
  | cons c l ih =>
    have hc : ¬ c = d := fun e => h (e ▸ .head _)
    simp only [List.cons_append, cutAt, if_neg hc, ih (fun h' => h (.tail _ h')), Option.map_some]

theorem dec_tab (n : Nat) : 9 ∉ dec n := not_mem_dec (by decide) n
theorem dec_lf (n : Nat) : 10 ∉ dec n := not_mem_dec (by decide) n

/-- The entry that stands in the line of a message. -/
def entryOf (zone : Int → Bytes) (r : Nat × Message) : Entry :=
  ⟨!r.2.outgoing, if r.2.outgoing then r.2.sent else r.2.read, r.1, zone r.2.date, r.2.from_, r.2.to, r.2.subject⟩

theorem readLine_line {zone : Int → Bytes} (hz : ∀ d, OneField (zone d)) {r : Nat × Message} (hf : OneField r.2.from_) (ht : OneField r.2.to) (hs : 10 ∉ r.2.subject)
    (s : Bytes) : ∃ l, 10 ∉ l ∧ listLine zone r ++ s = l ++ 10 :: s ∧ readLine l = some (entryOf zone r) := by
  refine ⟨[if r.2.outgoing then 60 else 62, if r.2.outgoing then (if r.2.sent then 83 else 80) else (if r.2.read then 82 else 78), 32] ++
    (dec r.1 ++ 9 :: (zone r.2.date ++ 9 :: (r.2.from_ ++ 9 :: (r.2.to ++ 9 :: r.2.subject)))), ?_, ?_, ?_⟩
  · simp only [List.mem_append, List.mem_cons, not_or, List.not_mem_nil, not_false_eq_true, and_true]
    refine ⟨⟨?_, ?_, by decide⟩, dec_lf _, by decide, (hz _).2, by decide, hf.2, by decide, ht.2, by decide, hs⟩
    · cases r.2.outgoing <;> decide
    · cases r.2.outgoing <;> cases r.2.sent <;> cases r.2.read <;> decide
  · simp [listLine]
  · simp only [List.cons_append, List.nil_append, readLine]
    rw [cutAt_append (dec_tab _)]
    have e : letters (if r.2.outgoing then 60 else 62) (if r.2.outgoing then (if r.2.sent then 83 else 80) else (if r.2.read then 82 else 78)) =
        some (!r.2.outgoing, if r.2.outgoing then r.2.sent else r.2.read) := by
      cases r.2.outgoing <;> cases r.2.sent <;> cases r.2.read <;> decide
    rw [e]
    simp [digits_dec, cutAt_append (hz _).1, cutAt_append hf.1, cutAt_append ht.1, entryOf]

theorem readList_lines {zone : Int → Bytes} (hz : ∀ d, OneField (zone d)) (t : Table Message)
    (h : ∀ r ∈ t, OneField r.2.from_ ∧ OneField r.2.to ∧ 10 ∉ r.2.subject) :
    readList (t.flatMap (listLine zone)) = some (t.map (entryOf zone)) := by
  unfold readList
  induction t with
  | nil => rfl
  | cons r t ih =>
    obtain ⟨h1, h2, h3⟩ := h r (.head _)
    obtain ⟨l, hl, e, hr⟩ := readLine_line hz h1 h2 h3 (t.flatMap (listLine zone))
    rw [List.flatMap_cons, e, linesOf_cons hl, List.mapM_cons, hr, ih fun r hr => h r (.tail _ hr)]
    rfl

/-! ### the names and subjects of stored messages -/

variable {I : Ids} {db db' : Db}

/-- A message carries the name of its nym, and its subject is its first line. -/
def Tidy (db : Db) (m : Message) : Prop :=
  m.subject = m.message.takeWhile (· != 10) ∧ ∃ n, (m.self, n) ∈ db.nyms ∧ n.mapped = if m.outgoing then m.from_ else m.to

theorem tidy_same {m m' : Message} (h : Tidy db m) (e : m'.subject = m.subject ∧ m'.message = m.message ∧ m'.self = m.self ∧ m'.outgoing = m.outgoing ∧
    m'.from_ = m.from_ ∧ m'.to = m.to) : Tidy db m' := by
  obtain ⟨e1, e2, e3, e4, e5, e6⟩ := e
  unfold Tidy
  rw [e1, e2, e3, e4, e5, e6]
  exact h

theorem tidy_nyms {t : Table Nym} {m : Message} (h : Tidy db m) (ht : ∀ u n, (u, n) ∈ db.nyms → ∃ n', (u, n') ∈ t ∧ n'.mapped = n.mapped) :
    Tidy { db with nyms := t } m := by
  obtain ⟨h1, n, h2, h3⟩ := h
  obtain ⟨n', h4, h5⟩ := ht _ _ h2
  exact ⟨h1, n', h4, by rw [h5, h3]⟩

theorem tidy_update {t : Table Nym} {p : Nym → Bool} {f : Nym → Nym} (hf : ∀ n, (f n).mapped = n.mapped) :
    ∀ u n, (u, n) ∈ t → ∃ n', (u, n') ∈ update p f t ∧ n'.mapped = n.mapped := by
  intro u n h
  obtain h | h := Classical.em (p n = true)
  · refine ⟨f n, ?_, hf n⟩
    unfold update
    exact List.mem_map.mpr ⟨(u, n), by assumption, by simp [h]⟩
  · refine ⟨n, ?_, rfl⟩
    unfold update
    exact List.mem_map.mpr ⟨(u, n), by assumption, by simp [h]⟩

theorem tidy_apply (hw : WF I db) (h : ∀ r ∈ db.messages, Tidy db r.2) (op : Op) (he : db.apply I op = .ok db') : ∀ r ∈ db'.messages, Tidy db' r.2 := by
  have upd : ∀ (i : Nat) (f : Message → Message), (∀ m, (f m).subject = m.subject ∧ (f m).message = m.message ∧ (f m).self = m.self ∧ (f m).outgoing = m.outgoing ∧
      (f m).from_ = m.from_ ∧ (f m).to = m.to) → ∀ r ∈ updateId i f db.messages, Tidy db r.2 := by
    intro i f hf r hr
    obtain ⟨a, ha, e | ⟨_, e⟩⟩ := of_updateId hr
    · rw [e]; exact h _ ha
    · rw [e]; exact tidy_same (h _ ha) (hf _)
  cases op with
  | addNym m u f =>
    simp only [Db.apply, Db.addNym] at he
    repeat' split at he
    all_goals first
      | cases he; done
      | skip
    · injection he with he; subst he
      intro r hr
      exact tidy_nyms (h r hr) fun u n hn => ⟨n, mem_insert.mpr (.inl hn), rfl⟩
    · injection he with he; subst he
      intro r hr
      exact tidy_nyms (h r hr) (tidy_update fun _ => rfl)
  | setUpkeepAll m t =>
    simp only [Db.apply, Db.setUpkeepAll] at he
    repeat' split at he
    all_goals first
      | cases he; done
      | skip
    injection he with he; subst he
    intro r hr
    exact tidy_nyms (h r hr) (tidy_update fun _ => rfl)
  | setUpkeepAccounts m t =>
    simp only [Db.apply, Db.setUpkeepAccounts] at he
    repeat' split at he
    all_goals first
      | cases he; done
      | skip
    injection he with he; subst he
    intro r hr
    exact tidy_nyms (h r hr) (tidy_update fun _ => rfl)
  | delNym m =>
    obtain ⟨u, n, _, _, rfl⟩ := delNym_ok he
    intro r hr
    simp only [Db.cascade] at hr
    obtain ⟨h1, h2⟩ := mem_delete.mp hr
    obtain ⟨h3, n', h4, h5⟩ := h r h1
    refine ⟨h3, n', ?_, h5⟩
    simp only [Db.cascade]
    exact mem_deleteId.mpr ⟨h4, by simpa using h2⟩
  | addMessage s p d b m g mi ma =>
    simp only [Db.apply, Db.addMessage] at he
    split at he
    · cases he
    split at he
    · cases he
    split at he
    · cases he
    rename_i u hs
    split at he
    · cases he
    injection he with he; subst he
    intro r hr
    rcases mem_insert.mp hr with hr | rfl
    · exact h r hr
    · refine ⟨rfl, ?_⟩
      obtain ⟨n, h1, h2⟩ := nymUID_some hs
      refine ⟨n, h1, ?_⟩
      cases b <;> simp [h2]
  | removeInQueue i p f d =>
    simp only [Db.apply, Db.removeInQueue] at he
    split at he
    · cases he
    split at he
    · cases he
    split at he
    · cases he
    split at he
    · cases he
    rename_i n hn
    injection he with he; subst he
    intro r hr
    dsimp only at hr
    cases d with
    | true => exact h r hr
    | false =>
      rcases mem_insert.mp hr with hr | rfl
      · exact h r hr
      · exact ⟨rfl, n, byId_some hn, by simp⟩
  | delMessage my n =>
    simp only [Db.apply, Db.delMessage] at he
    repeat' split at he
    all_goals first
      | cases he; done
      | skip
    injection he with he; subst he
    intro r hr
    exact h r (mem_deleteId.mp hr).1
  | readMessage n =>
    injection he with he; subst he
    intro r hr
    dsimp only [Db.readMessage] at hr
    refine upd _ _ ?_ r hr
    exact fun _ => ⟨rfl, rfl, rfl, rfl, rfl, rfl⟩
  | addOutQueue my i e a mi ma =>
    simp only [Db.apply, Db.addOutQueue] at he
    repeat' split at he
    all_goals first
      | cases he; done
      | skip
    injection he with he; subst he
    intro r hr
    dsimp only [Db.readMessage] at hr
    refine upd _ _ ?_ r hr
    exact fun _ => ⟨rfl, rfl, rfl, rfl, rfl, rfl⟩
  | removeOutQueue i d =>
    simp only [Db.apply, Db.removeOutQueue] at he
    repeat' split at he
    all_goals first
      | cases he; done
      | skip
    injection he with he; subst he
    intro r hr
    dsimp only [Db.readMessage] at hr
    refine upd _ _ ?_ r hr
    exact fun _ => ⟨rfl, rfl, rfl, rfl, rfl, rfl⟩
  | retractOutQueue i =>
    simp only [Db.apply, Db.retractOutQueue] at he
    repeat' split at he
    all_goals first
      | cases he; done
      | skip
    injection he with he; subst he
    intro r hr
    dsimp only [Db.readMessage] at hr
    refine upd _ _ ?_ r hr
    exact fun _ => ⟨rfl, rfl, rfl, rfl, rfl, rfl⟩
  | _ =>
    simp only [Db.apply, Db.addValue, Db.addContact, Db.removeContact,
      Db.addAccount, Db.setAccountTime, Db.setAccountLastMsg,
      Db.setOutQueue, Db.setResend, Db.clearResend, Db.addInQueue, Db.setInQueue,
      Db.delInQueue, Db.addCache, Db.removeCache] at he
    repeat' split at he
    all_goals first
      | cases he; done
      | (injection he with he; subst he; exact h)

theorem tidy_run (hw : WF I db) (h : ∀ r ∈ db.messages, Tidy db r.2) (ops : List Op) : ∀ r ∈ (db.run I ops).messages, Tidy (db.run I ops) r.2 := by
  induction ops generalizing db with
  | nil => exact h
  | cons op ops ih =>
    refine ih (wf_step hw op) ?_
    unfold Db.step
    cases he : db.apply I op with
    | error e => exact h
    | ok d => exact tidy_apply hw h op he

theorem tidy_reach (ops : List Op) : ∀ r ∈ (Db.new.run I ops).messages, Tidy (Db.new.run I ops) r.2 := tidy_run wf_new nofun ops

/-! ### the list -/

theorem of_takeWhile (s : Bytes) : 10 ∉ s.takeWhile (· != 10) ∧ (s = s.takeWhile (· != 10) ∨ ∃ b, s = s.takeWhile (· != 10) ++ 10 :: b) := by
  refine ⟨fun h => ?_, ?_⟩
  · have := List.all_eq_true.mp (List.all_takeWhile (p := (· != (10 : UInt8))) (l := s)) 10 h
    simp at this
  · induction s with
    | nil => exact .inl rfl
    | cons c s ih =>
      by_cases hc : c = 10
      · subst hc; exact .inr ⟨s, by simp⟩
      · rcases ih with ih | ⟨b, ih⟩
        · left; simp only [List.takeWhile_cons, bne_iff_ne, ne_eq, hc, not_false_eq_true, if_true]; rw [← ih]
        · right; exact ⟨b, by simp only [List.takeWhile_cons, bne_iff_ne, ne_eq, hc, not_false_eq_true, if_true, List.cons_append]; rw [← ih]⟩

/-- **C121** The list of messages says exactly what is stored: a reader of `msg list` finds one entry
for every message of the nym, in the order in which they were stored, with its number, whether it
was received or written, whether it was read or delivered, its date, both parties and its first
line. This needs that no identity contains a tab or a line break. -/
theorem C121_list_partial (ops : List Op) (hdb : db = Db.new.run I ops) (hI : ∀ id, I.map id = some id → OneField id)
    (zone : Int → Bytes) (hz : ∀ d, OneField (zone d)) (id out : Bytes) (h : msgList I zone db id = .ok out) :
    ∃ u n es, (u, n) ∈ db.nyms ∧ I.map id = some n.mapped ∧ readList out = some es ∧
      es.map Entry.id = (db.messages.filter fun r => r.2.self == u).map Prod.fst ∧
      ∀ (i : Nat) r, (db.messages.filter fun r => r.2.self == u)[i]? = some r → ∃ e, es[i]? = some e ∧ Describes db zone n.mapped e r := by
  have hw : WF I db := by rw [hdb]; exact wf_reach ops
  have ht : ∀ r ∈ db.messages, Tidy db r.2 := by rw [hdb]; exact tidy_reach ops
  unfold msgList at h
  split at h
  · cases h
  rename_i idMapped hm
  split at h
  · cases h
  rename_i t hg
  injection h with h; subst h
  unfold Db.getMsgIDs at hg
  split at hg
  · cases hg
  split at hg
  · cases hg
  rename_i u hu
  injection hg with hg; subst hg
  obtain ⟨n, hn, en⟩ := nymUID_some hu
  have names : ∀ r ∈ db.messages, r.2.self = u → (if r.2.outgoing then r.2.from_ else r.2.to) = n.mapped ∧
      ∃ k, (r.2.peer, k) ∈ db.contacts ∧ k.mapped = if r.2.outgoing then r.2.to else r.2.from_ := by
    intro r hr hs
    obtain ⟨_, n', h1, h2⟩ := ht r hr
    rw [hs] at h1
    have := byId_mem hw.nyms h1
    rw [byId_mem hw.nyms hn] at this
    injection this with this; subst this
    exact ⟨h2.symm, hw.messageName r hr⟩
  have clean : ∀ r ∈ db.messages, r.2.self = u → OneField r.2.from_ ∧ OneField r.2.to ∧ 10 ∉ r.2.subject := by
    intro r hr hs
    obtain ⟨h1, k, h2, h3⟩ := names r hr hs
    have f1 := hI _ (by simpa [Ids.isMapped] using (hw.nymFits _ hn).1)
    have f2 := hI _ (by simpa [Ids.isMapped] using (hw.contactFits _ h2).1)
    rw [← h1] at f1
    rw [h3] at f2
    refine ⟨?_, ?_, ?_⟩
    · cases ho : r.2.outgoing <;> simp only [ho, if_true] at f1 f2
      · exact f2
      · exact f1
    · cases ho : r.2.outgoing <;> simp only [ho, if_true] at f1 f2
      · exact f1
      · exact f2
    · rw [(ht r hr).1]; exact (of_takeWhile _).1
  have memf : ∀ r, r ∈ db.messages.filter (fun r => r.2.self == u) → r ∈ db.messages ∧ r.2.self = u := by
    intro r hr
    obtain ⟨h1, h2⟩ := List.mem_filter.mp hr
    exact ⟨h1, by simpa using h2⟩
  refine ⟨u, n, _, hn, by rw [en]; exact hm, readList_lines hz _ ?_, ?_, ?_⟩
  · intro r hr
    obtain ⟨h1, h2⟩ := memf r hr
    exact clean r h1 h2
  · rw [List.map_map]; rfl
  · intro i r hi
    obtain ⟨h1, h2⟩ := memf r (List.mem_of_getElem? hi)
    obtain ⟨h3, k, h4, h5⟩ := names r h1 h2
    refine ⟨entryOf zone r, ?_, ⟨rfl, rfl, rfl, rfl, h3, ⟨k, h4, h5⟩, ?_⟩⟩
    · rw [List.getElem?_map]
      have : (select (fun m : Message => m.self == u) db.messages)[i]? = some r := hi
      rw [this]; rfl
    · simp only [entryOf, (ht r h1).1]
      exact of_takeWhile _

/-! ### the text of a message -/

theorem readHeaders_line {name value : Bytes} (h1 : name ≠ []) (h2 : 58 ∉ name) (h3 : 10 ∉ name) (h4 : 10 ∉ value) (k : Nat) (s : Bytes) :
    readHeaders (k + 1) (headerLine name value ++ s) = (readHeaders k s).map fun p => ((name, value) :: p.1, p.2) := by
  have e : headerLine name value ++ s = (name ++ ([58, 32] ++ (value ++ [13]))) ++ 10 :: s := by simp [headerLine]
  have h5 : 10 ∉ name ++ ([58, 32] ++ (value ++ [13])) := by
    simp only [List.mem_append, not_or]; exact ⟨h3, by decide, h4, by decide⟩
  have e2 : name ++ ([58, 32] ++ (value ++ [13])) = (name ++ ([58, 32] ++ value)) ++ [13] := by simp
  rw [e, readHeaders.eq_2, cutAt_append h5, e2]
  simp only [Option.bind_eq_bind, Option.bind_some, List.getLast?_append, List.getLast?_singleton, Option.some_or, if_true, List.dropLast_concat]
  rw [if_neg (by simp [h1])]
  have e3 : name ++ ([58, 32] ++ value) = name ++ 58 :: (32 :: value) := rfl
  rw [e3, cutAt_append h2]
  simp only [Option.bind_some, List.head?_cons, if_true, List.tail_cons]
  cases readHeaders k s <;> rfl

theorem readHeaders_end (k : Nat) (s : Bytes) : readHeaders (k + 1) (13 :: 10 :: s) = some ([], s) := by
  unfold readHeaders
  have : cutAt 10 (13 :: 10 :: s) = some ([13], s) := rfl
  rw [this]
  rfl

theorem encode_chars (w : Bytes → Nat) (s : Bytes) : ∀ c ∈ encode w s, (32 ≤ c ∧ c ≤ 126) ∨ c = 9 := by
  intro c hc
  unfold encode at hc
  split at hc
  · simp only [List.mem_append] at hc
    have hw : ∀ c ∈ wordOpen ++ wordClose, 32 ≤ c ∧ c ≤ (126 : UInt8) := by decide
    rcases hc with hc | hc | hc
    · exact .inl (hw c (by simp [hc]))
    · exact .inl (qEncode_chars w _ _ _ c hc)
    · exact .inl (hw c (by simp [hc]))
  · rename_i hn
    unfold needsEncoding at hn
    rw [Bool.not_eq_true, List.any_eq_false] at hn
    have := hn c hc
    simp only [Bool.and_eq_true, Bool.not_eq_true', Bool.and_eq_false_iff, decide_eq_false_iff_not, bne_iff_ne, ne_eq, not_and, Classical.not_not] at this
    by_cases h9 : c = 9
    · exact .inr h9
    · by_cases h1 : 32 ≤ c
      · by_cases h2 : c ≤ 126
        · exact .inl ⟨h1, h2⟩
        · exact absurd (this (.inr h2)) h9
      · exact absurd (this (.inl h1)) h9

theorem encode_lf (w : Bytes → Nat) (s : Bytes) : 10 ∉ encode w s := fun h => absurd (encode_chars w s 10 h) (by decide)

theorem unWord_start {t x : Bytes} (h : unWord t = some x) : ∃ r, t = 61 :: 63 :: r := by
  unfold unWord at h
  split at h
  · rename_i hc
    obtain ⟨r, hr⟩ := List.isPrefixOf_iff_prefix.mp hc.1
    exact ⟨_, hr.symm⟩
  · cases h

theorem words_join (s : Bytes) : ∀ {l : Bytes} {ls : List Bytes}, words s = l :: ls → s = l ++ ls.flatMap (32 :: ·) := by
  induction s with
  | nil => intro l ls h; injection h with h1 h2; subst h1; subst h2; rfl
  | cons c s ih =>
    intro l ls h
    unfold words at h
    split at h
    · rename_i hc; subst hc
      injection h with h1 h2; subst h1; subst h2
      cases hw : words s with
      | nil => exact absurd hw (words_ne s)
      | cons a as => simp only [List.flatMap_cons, List.nil_append, List.cons_append]; rw [← ih hw]
    · split at h
      · rename_i hw; exact absurd hw (words_ne s)
      · rename_i a as hw
        injection h with h1 h2; subst h1; subst h2
        rw [List.cons_append, ← ih hw]

theorem showWords_plain {ls : List Bytes} (h : ∀ t ∈ ls, unWord t = none) : showWords false ls = ls.flatMap (32 :: ·) := by
  induction ls with
  | nil => rfl
  | cons t ls ih =>
    simp only [showWords, h t (.head _), List.flatMap_cons, List.cons_append]
    rw [ih fun t ht => h t (.tail _ ht)]

theorem decode_plain {s : Bytes} (h : NoWordStart s) : decodeHeader s = s := by
  unfold decodeHeader
  cases hw : words s with
  | nil => exact absurd hw (words_ne s)
  | cons l ls =>
    have hj := words_join s hw
    have hn : ∀ t ∈ l :: ls, unWord t = none := by
      intro t ht
      cases hu : unWord t with
      | none => rfl
      | some x =>
        obtain ⟨r, rfl⟩ := unWord_start hu
        rcases List.mem_cons.mp ht with e | ht
        · exact absurd (show s = [] ++ 61 :: 63 :: (r ++ ls.flatMap (32 :: ·)) by rw [hj, ← e]; rfl) (h _ _)
        · obtain ⟨a, b, e⟩ := List.append_of_mem ht
          exact absurd (show s = (l ++ (a.flatMap (32 :: ·) ++ [32])) ++ 61 :: 63 :: (r ++ b.flatMap (32 :: ·)) by rw [hj, e]; simp) (h _ _)
    simp only [hn l (.head _)]
    rw [showWords_plain fun t ht => hn t (.tail _ ht), ← hj]

/-- **C121** The subject in the header is the subject of the message: a mail reader that follows
RFC 2047 shows exactly the subject, if it has a character that must be encoded, or else does not
contain "=?". -/
theorem C121_subject_partial (w : Bytes → Nat) (s : Bytes) (h : (∃ c ∈ s, (c < 32 ∨ 126 < c) ∧ c ≠ 9) ∨ NoWordStart s) :
    decodeHeader (encode w s) = s := by
  unfold encode
  split
  · exact decode_encoded w s
  · rename_i hn
    rcases h with ⟨c, hc, h1, h2⟩ | h
    · exact absurd (List.any_eq_true.mpr ⟨c, hc, by
        simp only [Bool.and_eq_true, Bool.not_eq_true', Bool.and_eq_false_iff, decide_eq_false_iff_not, bne_iff_ne, ne_eq]
        refine ⟨?_, h2⟩
        rcases h1 with h1 | h1
        · exact .inl (UInt8.not_le.mpr h1)
        · exact .inr (UInt8.not_le.mpr h1)⟩) hn
    · exact decode_plain h

example : decodeHeader (encode (fun _ => 2) "Grüße aus München, und nun noch viel mehr Text, damit es mehrere Wörter werden: äöü".toUTF8.data.toList) =
    "Grüße aus München, und nun noch viel mehr Text, damit es mehrere Wörter werden: äöü".toUTF8.data.toList := by decide +kernel

/-- No stretch without a blank is longer than 75; `n` bytes came before. -/
def short : Nat → Bytes → Prop
  | n, [] => n ≤ 75
  | n, c :: t => if c = 32 then n ≤ 75 ∧ short 0 t else short (n + 1) t

theorem short_le : ∀ (w v : Bytes) (n : Nat), (32 : UInt8) ∉ w → short n (w ++ v) → n + w.length ≤ 75 := by
  intro w
  induction w with
  | nil =>
    intro v
    induction v with
    | nil => intro n _ h; exact h
    | cons c v ih =>
      intro n hn h
      rw [List.nil_append, short] at h
      split at h
      · exact h.1
      · have := ih (n + 1) hn h
        simp only [List.length_nil, Nat.add_zero] at this ⊢
        omega
  | cons c w ih =>
    intro v n hn h
    rw [List.cons_append, short, if_neg (fun e => hn (by simp [e]))] at h
    have := ih v (n + 1) (fun e => hn (List.mem_cons_of_mem _ e)) h
    simp only [List.length_cons]
    omega

theorem short_part : ∀ (u w v : Bytes) (n : Nat), (32 : UInt8) ∉ w → short n (u ++ (w ++ v)) → w.length ≤ 75 := by
  intro u
  induction u with
  | nil => intro w v n hw h; have := short_le w v n hw h; omega
  | cons c u ih =>
    intro w v n hw h
    rw [List.cons_append, short] at h
    split at h
    · exact ih w v 0 hw h.2
    · exact ih w v (n + 1) hw h

theorem short_app (w t : Bytes) (n : Nat) (hw : (32 : UInt8) ∉ w) : short n (w ++ t) ↔ short (n + w.length) t := by
  induction w generalizing n with
  | nil => simp
  | cons c w ih =>
    rw [List.cons_append, short, if_neg (fun e => hw (by simp [e])), ih _ (fun e => hw (List.mem_cons_of_mem _ e)), List.length_cons]
    have : n + 1 + w.length = n + (w.length + 1) := by omega
    rw [this]

theorem qByte_plain (b : UInt8) : (32 : UInt8) ∉ qByte b ∧ (qByte b).length ≤ 3 ∧ ((b = 32 ∨ plainByte b = true) → (qByte b).length = 1) := by
  refine forall_byte (p := fun b => (32 : UInt8) ∉ qByte b ∧ (qByte b).length ≤ 3 ∧ ((b = 32 ∨ plainByte b = true) → (qByte b).length = 1)) ?_ b
  decide +kernel

theorem qString_plain (s : Bytes) : (32 : UInt8) ∉ qString s ∧ (qString s).length ≤ 3 * s.length := by
  induction s with
  | nil => simp [qString]
  | cons b s ih =>
    obtain ⟨h1, h2, _⟩ := qByte_plain b
    obtain ⟨h3, h4⟩ := ih
    unfold qString at *
    rw [List.flatMap_cons]
    refine ⟨fun e => ?_, ?_⟩
    · rcases List.mem_append.1 e with e | e
      · exact h1 e
      · exact h3 e
    · rw [List.length_append, List.length_cons]
      omega

theorem qEncode_short (width : Bytes → Nat) (hw : ∀ s, width s ≤ 4) : ∀ (k cur : Nat) (s : Bytes) (n : Nat), cur ≤ 63 → n ≤ 10 + cur →
    short n (qEncode width k cur s ++ wordClose) := by
  intro k
  have base : ∀ cur n, cur ≤ 63 → n ≤ 10 + cur → short n ([] ++ wordClose) := by
    intro cur n hc hn
    rw [List.nil_append, ← List.append_nil wordClose, short_app _ _ _ (by decide), short]
    simp only [wordClose, List.length_cons, List.length_nil]
    omega
  induction k with
  | zero => intro cur s n hc hn; exact base cur n hc hn
  | succ k ih =>
    intro cur s n hc hn
    cases s with
    | nil => exact base cur n hc hn
    | cons b s =>
      simp only [qEncode]
      generalize hm : (if b = 32 ∨ plainByte b = true then 1 else runeLen width (b :: s)) = m
      generalize he : (if b = 32 ∨ plainByte b = true then 1 else 3 * m) = enc
      have hlen : (qString ((b :: s).take m)).length ≤ enc ∧ enc ≤ 12 := by
        by_cases hs : b = 32 ∨ plainByte b = true
        · rw [if_pos hs] at hm he
          subst hm he
          rw [List.take_succ_cons, List.take_zero]
          have : qString [b] = qByte b := by simp [qString]
          rw [this, (qByte_plain b).2.2 hs]
          omega
        · rw [if_neg hs] at hm he
          subst he
          have h1 := (qString_plain ((b :: s).take m)).2
          have h2 : ((b :: s).take m).length ≤ m := by rw [List.length_take]; omega
          have h3 : m ≤ 4 := by
            rw [← hm]
            unfold runeLen
            have := hw (b :: s)
            omega
          omega
      have hq := (qString_plain ((b :: s).take m)).1
      split
      · simp only [List.append_assoc]
        rw [short_app _ _ _ (by decide), List.cons_append, short, if_pos rfl]
        refine ⟨by simp only [wordClose, List.length_cons, List.length_nil]; omega, ?_⟩
        simp only [List.append_assoc]
        rw [short_app _ _ _ (by decide), short_app _ _ _ hq]
        exact ih enc _ _ (by omega) (by simp only [wordOpen, List.length_cons, List.length_nil]; omega)
      · rw [List.append_assoc, short_app _ _ _ hq]
        exact ih (cur + enc) _ _ (by omega) (by omega)

/-- C121: the words of an encoded subject have at most 75 characters, as required by RFC 2047. -/
theorem C121_words (width : Bytes → Nat) (hw : ∀ s, width s ≤ 4) (s : Bytes) (hs : ∃ c ∈ s, (c < 32 ∨ 126 < c) ∧ c ≠ 9)
    (u w v : Bytes) (he : encode width s = u ++ (w ++ v)) (hb : (32 : UInt8) ∉ w) : w.length ≤ 75 := by
  refine short_part u w v 0 hb ?_
  rw [← he]
  unfold encode
  rw [if_pos ?_, short_app _ _ _ (by decide)]
  · exact qEncode_short width hw _ 0 s _ (by omega) (by decide)
  · unfold needsEncoding
    obtain ⟨c, hc, h1, h2⟩ := hs
    rw [List.any_eq_true]
    refine ⟨c, hc, ?_⟩
    simp only [bne_iff_ne, ne_eq, h2, not_false_eq_true, Bool.and_eq_true, Bool.not_eq_true', Bool.and_eq_false_imp, decide_eq_true_eq, decide_eq_false_iff_not]
    refine ⟨fun h => ?_, trivial⟩
    grind

/-- **C121** (violated) A subject of printable ASCII characters that looks like an encoded word is
shown as something else. -/
theorem C121_subject_violated (w : Bytes → Nat) :
    let s := "=?utf-8?q?Hello_World?=".toUTF8.data.toList
    decodeHeader (encode w s) = "Hello World".toUTF8.data.toList := by
  intro s
  have : encode w s = s := if_neg (by decide +kernel)
  rw [this]
  decide +kernel

theorem trim_parts (s : Bytes) : ∃ k, s = Mime.trimRightCR s ++ List.replicate k 13 ∧ (Mime.trimRightCR s).getLast? ≠ some 13 := by
  unfold Mime.trimRightCR
  generalize hr : s.reverse = r
  have hs : s = r.reverse := by rw [← hr, List.reverse_reverse]
  subst hs
  clear hr
  induction r with
  | nil => exact ⟨0, rfl, nofun⟩
  | cons c r ih =>
    by_cases hc : c = 13
    · subst hc
      obtain ⟨k, h1, h2⟩ := ih
      refine ⟨k + 1, ?_, by simpa using h2⟩
      simp only [List.dropWhile_cons, beq_self_eq_true, if_true, List.reverse_cons, List.replicate_succ', ← List.append_assoc]
      rw [← h1]
    · exact ⟨0, by simp [hc], by simp [hc]⟩

theorem splitMessage_parts (msg : Bytes) : HasParts msg (Mime.splitMessage msg).1 (Mime.splitMessage msg).2 := by
  unfold Mime.splitMessage
  simp only
  obtain ⟨k, h1, h2⟩ := trim_parts (msg.takeWhile (· != 10))
  obtain ⟨h3, h4⟩ := of_takeWhile msg
  refine ⟨fun h => h3 (by rw [h1]; exact List.mem_append_left _ h), h2, k, ?_⟩
  have h5 := List.takeWhile_append_dropWhile (p := (· != (10 : UInt8))) (l := msg)
  rcases h4 with h4 | ⟨b, h4⟩
  · right
    have : msg.dropWhile (· != 10) = [] := by
      rw [← h4] at h5
      simpa using h5
    exact ⟨by rw [← h1]; exact h4, by rw [this]; rfl⟩
  · left
    have : msg.dropWhile (· != 10) = 10 :: b := by
      rw [← h5] at h4
      conv at h4 => rhs; rw [h5]
      exact List.append_cancel_left h4
    rw [this]
    simp only [List.drop_succ_cons, List.drop_zero]
    rw [← List.append_assoc, ← h1]
    exact h4

theorem readMail_text (w : Bytes → Nat) (rfc1123 : Int → Bytes) (x : Shown) (hd : 10 ∉ rfc1123 x.date) (hf : 10 ∉ x.from_) (ht : 10 ∉ x.to) :
    readMail (mailText w rfc1123 x) = some ([(txtDate, rfc1123 x.date), (txtFrom, x.from_), (txtTo, x.to)] ++
      ((if (Mime.splitMessage x.msg).1 = [] then [] else [(txtSubject, encode w (Mime.splitMessage x.msg).1)]) ++ [(txtVersion, txtOne), (txtType, txtText)]),
      (Mime.splitMessage x.msg).2) := by
  have long : ∀ n v : Bytes, 4 ≤ (headerLine n v).length := by
    intro n v; simp only [headerLine, List.length_append, List.length_cons, List.length_nil]; omega
  unfold readMail
  generalize hk : (mailText w rfc1123 x).length = k
  have hk8 : 8 ≤ k := by
    rw [← hk]
    unfold mailText
    simp only [List.length_append]
    have h1 := long txtDate (rfc1123 x.date)
    have h2 := long txtFrom x.from_
    omega
  obtain ⟨j, rfl⟩ : ∃ j, k = j + 8 := ⟨k - 8, by omega⟩
  unfold mailText
  simp only
  rw [readHeaders_line (by decide +kernel) (by decide +kernel) (by decide +kernel) hd,
    readHeaders_line (by decide +kernel) (by decide +kernel) (by decide +kernel) hf,
    readHeaders_line (by decide +kernel) (by decide +kernel) (by decide +kernel) ht]
  split
  · rw [List.nil_append, readHeaders_line (by decide +kernel) (by decide +kernel) (by decide +kernel) (by decide +kernel),
      readHeaders_line (by decide +kernel) (by decide +kernel) (by decide +kernel) (by decide +kernel), readHeaders_end]
    rfl
  · rw [readHeaders_line (by decide +kernel) (by decide +kernel) (by decide +kernel) (encode_lf _ _),
      readHeaders_line (by decide +kernel) (by decide +kernel) (by decide +kernel) (by decide +kernel),
      readHeaders_line (by decide +kernel) (by decide +kernel) (by decide +kernel) (by decide +kernel), readHeaders_end]
    rfl

/-- The text for a party: the identity as it was given, with the full name if there is one. -/
def party (unmapped fullName : Bytes) : Bytes := if fullName = [] then unmapped else fullName ++ " <".toUTF8.data.toList ++ unmapped ++ ">".toUTF8.data.toList

theorem first_nym (hw : WF I db) {u : Nat} {n : Nym} (h : (u, n) ∈ db.nyms) : first (fun x : Nym => x.mapped == n.mapped) db.nyms = some (u, n) := by
  cases hf : first (fun x : Nym => x.mapped == n.mapped) db.nyms with
  | none =>
    have := List.find?_eq_none.mp hf _ h
    simp at this
  | some r =>
    have h1 := List.mem_of_find?_eq_some hf
    have h2 := List.find?_some hf
    exact congrArg some (hw.nymUnique r h1 _ h (by simpa using h2))

theorem getMessage_parts (hw : WF I db) {my : Bytes} {n : Nat} {x : Shown} (h : db.getMessage I my n = .ok x) :
    ∃ m nym k, (n, m) ∈ db.messages ∧ (m.self, nym) ∈ db.nyms ∧ nym.mapped = my ∧ (m.peer, k) ∈ db.contacts ∧ k.myID = m.self ∧
      x = ⟨if m.outgoing then party nym.unmapped nym.fullName else party k.unmapped k.fullName,
        if m.outgoing then party k.unmapped k.fullName else party nym.unmapped nym.fullName, m.message, m.date⟩ := by
  have hparty : ∀ u f, display u f = party u f := by
    intro u f; rfl
  unfold Db.getMessage at h
  split at h
  · cases h
  split at h
  · cases h
  rename_i m hm
  split at h
  · cases h
  rename_i nym hn
  split at h
  · cases h
  rename_i hmy
  have hmy : my = nym.mapped := Classical.not_not.mp hmy
  have hn' := byId_some hn
  have hm' := byId_some hm
  obtain ⟨k, hk, ek⟩ := hw.messagePeer _ hm'
  simp only at hk ek
  have hc := contactMapped_mem hw hk
  rw [ek] at hc
  rw [hc] at h
  simp only at h
  have e1 : db.showNym I nym.mapped = .ok (party nym.unmapped nym.fullName) := by
    unfold Db.showNym Db.getNym
    rw [if_neg (by rw [(hw.nymFits _ hn').1]; nofun), first_nym hw hn']
    rfl
  have e2 : ∀ c, db.showContact I nym.mapped k.mapped = .ok c → c = party k.unmapped k.fullName := by
    intro c hc
    unfold Db.showContact Db.getContact at hc
    rw [if_neg (by rw [(hw.nymFits _ hn').1]; nofun), if_neg (by rw [(hw.contactFits _ hk).1]; nofun), nymUID_mem hw hn'] at hc
    have hf := first_contact hw hk
    rw [ek] at hf
    simp only [hf] at hc
    split at hc
    · cases hc
    · rename_i u f t hx
      split at hx
      · injection hx with hx
        injection hx with h1 h2
        injection h2 with h2 _
        injection hc with hc
        rw [← hc, ← h1, ← h2]
        rfl
      · cases hx
  unfold Db.showMessage at h
  rw [e1] at h
  cases hs : db.showContact I nym.mapped k.mapped with
  | error e => rw [hs] at h; cases h
  | ok c =>
    rw [hs, e2 c hs] at h
    injection h with h
    exact ⟨m, nym, k, hm', hn', hmy.symm, hk, ek, h.symm⟩

/-- **C121** `msg read` works exactly for the messages of the nym. What it prints is a mail with
exactly the headers Date, From, To, Subject (if there is a subject), MIME-Version and Content-Type;
the parties are those of the message, the body is the text behind the first line, and nothing in
the text of the message can add a header or end the headers. The message is then marked as read and
nothing else is changed. This needs that no identity and no full name contains a line break. -/
theorem C121_read_partial (ops : List Op) (hops : ∀ op ∈ ops, ValidType op) (hdb : db = Db.new.run I ops) (w : Bytes → Nat) (rfc1123 : Int → Bytes)
    (hd : ∀ d, 10 ∉ rfc1123 d) (hn : ∀ r ∈ db.nyms, 10 ∉ r.2.unmapped ∧ 10 ∉ r.2.fullName) (hc : ∀ r ∈ db.contacts, 10 ∉ r.2.unmapped ∧ 10 ∉ r.2.fullName)
    (my : Bytes) (i : Nat) :
    ((∃ out db', msgRead I w rfc1123 db my i = .ok (out, db')) ↔ ∃ m n, (i, m) ∈ db.messages ∧ (m.self, n) ∈ db.nyms ∧ I.map my = some n.mapped) ∧
    ∀ out db', msgRead I w rfc1123 db my i = .ok (out, db') →
      ∃ m n k subj body value, (i, m) ∈ db.messages ∧ (m.self, n) ∈ db.nyms ∧ I.map my = some n.mapped ∧ (m.peer, k) ∈ db.contacts ∧
        HasParts m.message subj body ∧
        (((∃ c ∈ subj, (c < 32 ∨ 126 < c) ∧ c ≠ 9) ∨ NoWordStart subj) → decodeHeader value = subj) ∧
        readMail out = some (
          [("Date".toUTF8.data.toList, rfc1123 m.date),
            ("From".toUTF8.data.toList, if m.outgoing then party n.unmapped n.fullName else party k.unmapped k.fullName),
            ("To".toUTF8.data.toList, if m.outgoing then party k.unmapped k.fullName else party n.unmapped n.fullName)] ++
          ((if subj = [] then [] else [("Subject".toUTF8.data.toList, value)]) ++
          [("MIME-Version".toUTF8.data.toList, "1.0".toUTF8.data.toList), ("Content-Type".toUTF8.data.toList, "text/plain; charset=UTF-8".toUTF8.data.toList)]), body) ∧
        db' = { db with messages := db.messages.map fun r => if r.1 = i then (r.1, { r.2 with read := true }) else r } := by
  have hw : WF I db := by rw [hdb]; exact wf_reach ops
  have hp : ∀ u f : Bytes, 10 ∉ u → 10 ∉ f → 10 ∉ party u f := by
    intro u f h1 h2
    unfold party
    split
    · exact h1
    · simp only [List.mem_append, not_or]
      exact ⟨⟨⟨h2, by decide +kernel⟩, h1⟩, by decide +kernel⟩
  constructor
  · constructor
    · intro ⟨out, db', h⟩
      unfold msgRead at h
      split at h
      · cases h
      rename_i my' hm
      split at h
      · cases h
      rename_i x hx
      obtain ⟨m, n, k, h1, h2, h3, -⟩ := getMessage_parts hw hx
      exact ⟨m, n, h1, h2, by rw [h3]; exact hm⟩
    · intro ⟨m, n, h1, h2, h3⟩
      have hg : db.getMsgIDs I n.mapped = .ok (select (fun r : Message => r.self == m.self) db.messages) := by
        unfold Db.getMsgIDs
        rw [if_neg (by rw [(hw.nymFits _ h2).1]; nofun), nymUID_mem hw h2]
      obtain ⟨x, hx, -, -⟩ := C98_listed_readable ops hops hdb n.mapped _ hg i m (List.mem_filter.mpr ⟨h1, by simp⟩)
      unfold msgRead
      rw [h3]
      simp only [hx]
      exact ⟨_, _, rfl⟩
  · intro out db' h
    unfold msgRead at h
    split at h
    · cases h
    rename_i my' hm
    split at h
    · cases h
    rename_i x hx
    injection h with h
    injection h with h4 h5
    obtain ⟨m, n, k, h1, h2, h3, h6, h7, rfl⟩ := getMessage_parts hw hx
    have p1 := hp _ _ (hn _ h2).1 (hn _ h2).2
    have p2 := hp _ _ (hc _ h6).1 (hc _ h6).2
    refine ⟨m, n, k, (Mime.splitMessage m.message).1, (Mime.splitMessage m.message).2, encode w (Mime.splitMessage m.message).1, h1, h2,
      by rw [h3]; exact hm, h6, splitMessage_parts _, C121_subject_partial w _, ?_, ?_⟩
    · rw [← h4, readMail_text w rfc1123 _ (hd _) ?_ ?_]
      · rfl
      · cases m.outgoing
        · exact p2
        · exact p1
      · cases m.outgoing
        · exact p1
        · exact p2
    · rw [← h5]
      unfold Db.readMessage updateId
      congr 1
      apply List.map_congr_left
      intro r _
      by_cases hr : r.1 = i <;> simp [hr]

/-! ### examples -/

/-- `identity.Map` on ASCII texts. -/
def asciiU : Ident.Unicode := ⟨fun c => if 'A' ≤ c ∧ c ≤ 'Z' then Char.ofNat (c.toNat + 32) else c, fun c => c = ' ' || (9 ≤ c.toNat && c.toNat ≤ 13)⟩

def asciiI : Ids := ⟨fun b =>
  if b.all (· < 128) then
    match Ident.map asciiU (b.map fun c => Char.ofNat c.toNat) with
    | .ok m => some (m.map fun c => UInt8.ofNat c.toNat)
    | _ => none
  else none⟩

def bytes (s : String) : Bytes := s.toUTF8.data.toList

/-- A time as "t". -/
def exTime : Int → Bytes := fun _ => [116]

def exOps (sender : String) (msg : String) : List Op :=
  [.addNym (bytes "alice@mute.one") (bytes "Alice@mute.one") (bytes "Alice"), .addContact (bytes "alice@mute.one") (bytes sender) (bytes sender) [] 1,
   .addMessage (bytes "alice@mute.one") (bytes sender) 7 false (bytes msg) false 0 0]

example : ∃ out, msgList asciiI exTime (Db.new.run asciiI (exOps "bob@mute.one" "Hi\tthere\nHow are you?")) (bytes "Alice@MUTE.one") = .ok out ∧
    out = bytes ">N 1\tt\tbob@mute.one\talice@mute.one\tHi\tthere\n" ∧
    readList out = some [⟨true, false, 1, exTime 7, bytes "bob@mute.one", bytes "alice@mute.one", bytes "Hi\tthere"⟩] := by
  refine ⟨_, rfl, ?_, ?_⟩ <;> decide +kernel

example : ((msgRead asciiI (fun _ => 1) exTime (Db.new.run asciiI (exOps "bob@mute.one" "Hi\r\nHow are you?")) (bytes "Alice@MUTE.one") 1).toOption.map Prod.fst) =
    some (bytes "Date: t\r\nFrom: bob@mute.one\r\nTo: Alice <Alice@mute.one>\r\nSubject: Hi\r\nMIME-Version: 1.0\r\nContent-Type: text/plain; charset=UTF-8\r\n\r\nHow are you?") := by
  decide +kernel

/-- `identity.Map`, if it refused tabs and line breaks. -/
def cleanI : Ids := ⟨fun b => if 9 ∈ b ∨ 10 ∈ b then none else asciiI.map b⟩

example := C121_list_partial (I := cleanI) (exOps "bob@mute.one" "Hi\tthere\nHow are you?") rfl (by
  intro id h
  unfold cleanI at h
  simp only at h
  split at h
  · cases h
  · rename_i hn; exact not_or.mp hn) exTime (fun _ => ⟨(by decide : 9 ∉ ([116] : Bytes)), (by decide : 10 ∉ ([116] : Bytes))⟩) (bytes "Alice@MUTE.one") _ rfl

example := (C121_read_partial (I := asciiI) (exOps "bob@mute.one" "Hi\r\nHow are you?") (by
    intro op hop
    simp only [exOps, List.mem_cons, List.not_mem_nil, or_false] at hop
    rcases hop with rfl | rfl | rfl <;> simp [ValidType]) rfl (fun _ => 1) exTime (fun _ => (by decide : 10 ∉ ([116] : Bytes)))
  (by decide +kernel) (by decide +kernel) (bytes "Alice@MUTE.one") 1).2 _ _ rfl

/-- **C121** (violated) `identity.Map` accepts tabs and line breaks in a domain. The list then
shows a wrong sender (here "bob@mute.one" for "bob@mute.one⇥you⇥pay"), or lines of messages that do not exist. -/
theorem C121_list_violated :
    asciiI.isMapped (bytes "bob@mute.one\tyou\tpay") = true ∧ asciiI.isMapped (bytes "bob@mute.one\n>n 2\tt\tcarol") = true ∧
    (∃ out, msgList asciiI exTime (Db.new.run asciiI (exOps "bob@mute.one\tyou\tpay" "Hi")) (bytes "alice@mute.one") = .ok out ∧
      readList out = some [⟨true, false, 1, exTime 7, bytes "bob@mute.one", bytes "you", bytes "pay\talice@mute.one\tHi"⟩]) ∧
    ∃ out, msgList asciiI exTime (Db.new.run asciiI (exOps "bob@mute.one\n>n 2\tt\tcarol" "Hi")) (bytes "alice@mute.one") = .ok out ∧
      linesOf out = [bytes ">N 1\tt\tbob@mute.one", bytes ">n 2\tt\tcarol\talice@mute.one\tHi"] := by
  refine ⟨by decide +kernel, by decide +kernel, ⟨_, rfl, ?_⟩, ⟨_, rfl, ?_⟩⟩ <;> decide +kernel

/-- **C121** (violated) A sender whose domain contains a line break adds headers to the mail that
`msg read` prints, here a subject for a message that has none. -/
theorem C121_header_violated :
    asciiI.isMapped (bytes "bob@mute.one\r\nsubject: pay") = true ∧
    ∃ out db', msgRead asciiI (fun _ => 1) exTime (Db.new.run asciiI (exOps "bob@mute.one\r\nsubject: pay" "\nHi")) (bytes "alice@mute.one") 1 = .ok (out, db') ∧
      readMail out = some ([(bytes "Date", exTime 7), (bytes "From", bytes "bob@mute.one"), (bytes "subject", bytes "pay"), (bytes "To", bytes "Alice <Alice@mute.one>"),
        (bytes "MIME-Version", bytes "1.0"), (bytes "Content-Type", bytes "text/plain; charset=UTF-8")], bytes "Hi") := by
  refine ⟨by decide +kernel, _, _, rfl, ?_⟩
  decide +kernel

end Verif.Ctrl.Show

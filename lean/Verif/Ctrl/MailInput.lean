/-
`msg add`: where the text comes from, and `--mail-input` (ctrlengine/msg.go:127-168, ctrlengine/mail/mail.go). The
header of a mail is read by `ReadMessage` of Go's package net/mail, which is `ReadMIMEHeader` of net/textproto (not part
of the repository, modelled here without its limits on sizes).
-/
import Verif.Ctrl.Contact
import Verif.Ctrl.ShowProps

set_option autoImplicit false

namespace Verif.Ctrl.MailInput
open Verif.Msgdb
open Verif.Ctrl.Show (forall_byte)

/-! ### net/textproto -/

/-- Blank or tab. -/
def isSp (c : UInt8) : Bool := c == 32 || c == 9

/-- `trim`: blanks and tabs at both ends. -/
def trim (s : Bytes) : Bytes := ((s.dropWhile isSp).reverse.dropWhile isSp).reverse

/-- `bufio.Reader.ReadLine`: the line without its end, and what follows; none at the end of the input. -/
def readLine (s : Bytes) : Option (Bytes × Bytes) :=
  match s with
  | [] => none
  | _ =>
    let l := s.takeWhile (· ≠ 10)
    match s.dropWhile (· ≠ 10) with
    | [] => some (l, [])
    | _ :: rest => some (if l.getLast? = some 13 then l.dropLast else l, rest)

/-- The continuation lines (`readContinuedLineSlice`); the first argument bounds the lines. -/
def continued : Nat → Bytes → Bytes → Bytes × Bytes
  | 0, buf, s => (buf, s)
  | k + 1, buf, s =>
    match s with
    | [] => (buf, [])
    | c :: _ =>
      if isSp c then
        match readLine (s.dropWhile isSp) with
        | none => (buf, [])
        | some (l, rest) => continued k (buf ++ 32 :: trim l) rest
      else (buf, s)

/-- A character of a token (RFC 7230). -/
def isToken (c : UInt8) : Bool :=
  (48 ≤ c && c ≤ 57) || (65 ≤ c && c ≤ 90) || (94 ≤ c && c ≤ 122) || c == 33 || (35 ≤ c && c ≤ 39) || c == 42 || c == 43 || c == 45 || c == 46 || c == 124 || c == 126

def upper (c : UInt8) : UInt8 := if 97 ≤ c ∧ c ≤ 122 then c - 32 else c
def lower (c : UInt8) : UInt8 := if 65 ≤ c ∧ c ≤ 90 then c + 32 else c

/-- The first letter and those after a hyphen are upper case, the others lower case. -/
def canonGo : Bool → Bytes → Bytes
  | _, [] => []
  | up, c :: s => (if up then upper c else lower c) :: canonGo (c == 45) s

/-- `canonicalMIMEHeaderKey`. -/
def canon (k : Bytes) : Bytes := if k.all isToken then canonGo true k else k

/-- `ReadMIMEHeader`: the fields in their order and the body. The first argument bounds the lines. -/
def readHeader : Nat → Bytes → Option (List (Bytes × Bytes) × Bytes)
  | 0, _ => none
  | k + 1, s =>
    match readLine s with
    | none => none
    | some ([], rest) => some ([], rest)
    | some (c :: l, rest) =>
      let r := continued k (trim (c :: l)) rest
      if r.1 = [] then some ([], r.2)
      else
        match r.1.dropWhile (· ≠ 58) with
        | [] => none
        | _ :: v =>
          let key := canon (((r.1.takeWhile (· ≠ 58)).reverse.dropWhile (· = 32)).reverse)
          (readHeader k r.2).map fun x => (if key = [] then x.1 else (key, v.dropWhile isSp) :: x.1, x.2)

/-- `Header.Get`. -/
def get (h : List (Bytes × Bytes)) (name : Bytes) : Bytes := ((h.find? (·.1 = canon name)).map (·.2)).getD []

/-! ### mail.go and msg.go -/

def txtTo : Bytes := "To".toUTF8.data.toList
def txtSubject : Bytes := "Subject".toUTF8.data.toList

/-- `mail.Parse` (mail.go:20-44). -/
def parse (s : Bytes) : Option (Bytes × Bytes) :=
  match readHeader (s.length + 1) s with
  | none => none
  | some (h, body) => if get h txtTo = [] then none else some (get h txtTo, get h txtSubject ++ 10 :: body)

/-- Where the text of a message comes from (msg.go:127-159): a file (or an error), the terminal (the lines, and whether
the input ended with Ctrl-D), or the standard input (or an error). -/
inductive Source
  | file (content : Option Bytes)
  | terminal (lines : List Bytes) (eof : Bool)
  | stdin (content : Option Bytes)

/-- The text (msg.go:127-159). -/
def Source.text : Source → Option Bytes
  | .file c => c
  | .terminal ls eof => if eof then some (ls.flatMap fun l => l ++ [10]) else none
  | .stdin c => c

/-- The recipient and the text (msg.go:161-168). -/
def input (src : Source) (mailInput : Bool) (to : Bytes) : Option (Bytes × Bytes) :=
  match src.text with
  | none => none
  | some t => if mailInput then parse t else some (to, t)

/-- `msg add` (msg.go:106-194); nothing is written to the database before the text was read. -/
def add (I : Ids) (db : Db) (frm to : Bytes) (src : Source) (mailInput : Bool) (now : Int) (sign : Bool) (min max : Int) : Except Err Db :=
  match input src mailInput to with
  | none => .error .unknown
  | some (to, msg) => msgAdd I db frm to now msg sign min max

/-! ### Specification -/

/-- The end of lines: LF or CR LF. -/
def Eol (e : Bytes) : Prop := e = [10] ∨ e = [13, 10]

/-- A part of the value of a field: one line, without blanks at its ends. -/
structure Part (v : Bytes) : Prop where
  plain : ∀ c ∈ v, c ≠ 10 ∧ c ≠ 13
  trimmed : trim v = v

/-- A field of a mail: the name, and the value in one or more lines. -/
structure Fld where
  name : Bytes
  first : Bytes
  more : List Bytes

/-- The value of a field: the lines separated by blanks. -/
def Fld.value (f : Fld) : Bytes := f.first ++ f.more.flatMap fun v => 32 :: v

/-- A field that can be written. -/
structure Field (f : Fld) : Prop where
  key : f.name ≠ []
  token : f.name.all isToken = true
  first : Part f.first
  more : ∀ v ∈ f.more, v ≠ [] ∧ Part v
  folded : f.more ≠ [] → f.first ≠ []

/-- The lines of a field; the lines after the first begin with a blank. -/
def Fld.text (eol : Bytes) (f : Fld) : Bytes := f.name ++ [58, 32] ++ f.first ++ eol ++ f.more.flatMap fun v => 32 :: v ++ eol

/-- A mail. -/
def mail (eol : Bytes) (fields : List Fld) (body : Bytes) : Bytes := fields.flatMap (Fld.text eol) ++ eol ++ body

/-- The first field of a name, in upper or lower case. -/
def field (name : Bytes) (fields : List Fld) : Bytes :=
  ((fields.find? fun f => f.name.map lower = name.map lower).map Fld.value).getD []

/-! ### Proofs -/

theorem lower_upper : ∀ c : UInt8, lower (upper c) = lower c := forall_byte (by decide +kernel)
theorem lower_lower : ∀ c : UInt8, lower (lower c) = lower c := forall_byte (by decide +kernel)
theorem upper_lower : ∀ c : UInt8, upper (lower c) = upper c := forall_byte (by decide +kernel)
theorem lower_hyphen : ∀ c : UInt8, (lower c == 45) = (c == 45) := forall_byte (by decide +kernel)
theorem token_plain : ∀ c : UInt8, isToken c = true → c ≠ 10 ∧ c ≠ 13 ∧ c ≠ 58 ∧ c ≠ 32 ∧ isSp c = false := forall_byte (by decide +kernel)

theorem map_lower_canonGo (up : Bool) (k : Bytes) : (canonGo up k).map lower = k.map lower := by
  induction k generalizing up with
  | nil => rfl
  | cons c s ih =>
    rw [canonGo, List.map_cons, List.map_cons, ih]
    cases up
    · simp [lower_lower]
    · simp [lower_upper]

theorem canonGo_lower (up : Bool) (k : Bytes) : canonGo up (k.map lower) = canonGo up k := by
  induction k generalizing up with
  | nil => rfl
  | cons c s ih =>
    rw [List.map_cons, canonGo, canonGo, lower_hyphen, ih]
    cases up
    · simp [lower_lower]
    · simp [upper_lower]

theorem canon_eq {k n : Bytes} (hk : k.all isToken = true) (hn : n.all isToken = true) : canon k = canon n ↔ k.map lower = n.map lower := by
  unfold canon
  rw [if_pos hk, if_pos hn]
  constructor
  · intro h
    have := congrArg (List.map lower) h
    rwa [map_lower_canonGo, map_lower_canonGo] at this
  · intro h
    rw [← canonGo_lower true k, h, canonGo_lower]

theorem get_field {fields : List Fld} (h : ∀ f ∈ fields, Field f) {name : Bytes} (hn : name.all isToken = true) :
    get (fields.map fun f => (canon f.name, f.value)) name = field name fields := by
  unfold get field
  congr 1
  induction fields with
  | nil => rfl
  | cons f fs ih =>
    have hf := (h f (List.mem_cons_self ..)).token
    have ih := ih fun x hx => h x (List.mem_cons_of_mem _ hx)
    rw [List.map_cons]
    by_cases hc : f.name.map lower = name.map lower
    · rw [List.find?_cons_of_pos (by simpa using (canon_eq hf hn).2 hc), List.find?_cons_of_pos (by simpa using hc)]
      rfl
    · rw [List.find?_cons_of_neg (by simpa using fun e => hc ((canon_eq hf hn).1 e)), List.find?_cons_of_neg (by simpa using hc), ih]

theorem readLine_line {l eol rest : Bytes} (h : ∀ c ∈ l, c ≠ 10 ∧ c ≠ 13) (he : Eol eol) : readLine (l ++ eol ++ rest) = some (l, rest) := by
  have h10 : ∀ c ∈ l, decide (c ≠ 10) = true := fun c hc => by simpa using (h c hc).1
  have hl : l.getLast? ≠ some 13 := fun hz => (h 13 (List.mem_of_getLast? hz)).2 rfl
  unfold readLine
  split
  · next heq =>
    rcases he with rfl | rfl
    · simp at heq
    · simp at heq
  · rw [List.append_assoc]
    simp only [List.takeWhile_append_of_pos h10, List.dropWhile_append_of_pos h10]
    rcases he with rfl | rfl
    · simp [hl]
    · simp

theorem dropWhile_sp {s : Bytes} (h : ∀ c, s.head? = some c → isSp c = false) : s.dropWhile isSp = s := by
  cases s with
  | nil => rfl
  | cons c s => rw [List.dropWhile_cons_of_neg (by simpa using h c rfl)]

/-- A text without blanks at its ends. -/
theorem trim_self {s : Bytes} (h1 : ∀ c, s.head? = some c → isSp c = false) (h2 : ∀ c, s.getLast? = some c → isSp c = false) : trim s = s := by
  unfold trim
  rw [dropWhile_sp h1, dropWhile_sp (by rw [List.head?_reverse]; exact h2), List.reverse_reverse]

theorem trim_ends {s : Bytes} (h : trim s = s) : (∀ c, s.head? = some c → isSp c = false) ∧ (∀ c, s.getLast? = some c → isSp c = false) := by
  have key : ∀ (t : Bytes) c, (t.dropWhile isSp).head? = some c → isSp c = false := by
    intro t c hc
    have := List.head?_dropWhile_not isSp t
    rw [hc] at this
    simpa using this
  have last : ∀ c, s.getLast? = some c → isSp c = false := by
    intro c hc
    rw [← h] at hc
    unfold trim at hc
    rw [List.getLast?_reverse] at hc
    exact key _ c hc
  refine ⟨fun c hc => ?_, last⟩
  have hd : s.dropWhile isSp = s := by
    have hlen := congrArg List.length h
    unfold trim at hlen
    rw [List.length_reverse] at hlen
    have l1 := (List.dropWhile_sublist isSp (l := (s.dropWhile isSp).reverse)).length_le
    rw [List.length_reverse] at l1
    have l2 := List.dropWhile_suffix isSp (l := s)
    exact l2.eq_of_length_le (by omega)
  rw [← hd] at hc
  exact key s c hc

theorem continued_stop (k : Nat) (buf : Bytes) {s : Bytes} (h : ∀ c, s.head? = some c → isSp c = false) : continued k buf s = (buf, s) := by
  cases k with
  | zero => rfl
  | succ k =>
    cases s with
    | nil => rfl
    | cons c s => rw [continued, if_neg (by simpa using h c rfl)]

theorem trim_line {k v : Bytes} (h1 : k ≠ []) (h2 : k.all isToken = true) (h4 : trim v = v) :
    trim (k ++ [58, 32] ++ v) = k ++ 58 :: (if v = [] then [] else 32 :: v) := by
  obtain ⟨c, k, rfl⟩ := List.exists_cons_of_ne_nil h1
  have hc : isSp c = false := by
    simp only [List.all_cons, Bool.and_eq_true] at h2
    exact (token_plain c h2.1).2.2.2.2
  by_cases hv : v = []
  · subst hv
    rw [if_pos rfl]
    unfold trim
    rw [dropWhile_sp (s := c :: k ++ [58, 32] ++ []) (by intro x hx; simp at hx; rw [← hx]; exact hc)]
    simp only [List.append_nil, List.reverse_append, List.reverse_cons, List.reverse_nil, List.nil_append, List.cons_append]
    rw [List.dropWhile_cons_of_pos (by decide), List.dropWhile_cons_of_neg (by decide)]
    simp
  · rw [if_neg hv]
    have ht : trim (c :: k ++ [58, 32] ++ v) = c :: k ++ [58, 32] ++ v := by
      refine trim_self (by intro x hx; simp at hx; rw [← hx]; exact hc) ?_
      intro x hx
      rw [List.getLast?_append] at hx
      cases hl : v.getLast? with
      | none => exact absurd (List.getLast?_eq_none_iff.1 hl) hv
      | some y =>
        rw [hl] at hx
        simp at hx
        subst hx
        exact (trim_ends h4).2 _ hl
    rw [ht]
    simp

theorem continued_more {eol : Bytes} (he : Eol eol) {rest : Bytes} (hr : ∀ c, rest.head? = some c → isSp c = false) :
    ∀ (more : List Bytes) (_ : ∀ v ∈ more, v ≠ [] ∧ Part v) (k : Nat) (buf : Bytes), more.length ≤ k →
    continued k buf ((more.flatMap fun v => 32 :: v ++ eol) ++ rest) = (buf ++ more.flatMap fun v => 32 :: v, rest) := by
  intro more
  induction more with
  | nil => intro _ k buf _; simpa using continued_stop k buf hr
  | cons v vs ih =>
    intro h k buf hk
    obtain ⟨k, rfl⟩ : ∃ j, k = j + 1 := ⟨k - 1, by simp at hk; omega⟩
    obtain ⟨hne, hp⟩ := h v (List.mem_cons_self ..)
    obtain ⟨c, t, hct⟩ := List.exists_cons_of_ne_nil hne
    have hc : isSp c = false := (trim_ends hp.trimmed).1 c (by rw [hct]; rfl)
    have e1 : ((v :: vs).flatMap fun v => 32 :: v ++ eol) ++ rest = 32 :: (v ++ eol ++ ((vs.flatMap fun v => 32 :: v ++ eol) ++ rest)) := by simp
    have e2 : (32 :: (v ++ eol ++ ((vs.flatMap fun v => 32 :: v ++ eol) ++ rest))).dropWhile isSp = v ++ eol ++ ((vs.flatMap fun v => 32 :: v ++ eol) ++ rest) := by
      rw [List.dropWhile_cons_of_pos (by decide)]
      apply dropWhile_sp
      intro x hx
      rw [hct] at hx
      simp at hx
      rw [← hx]
      exact hc
    rw [e1, continued, if_pos (by decide), e2, readLine_line hp.plain he]
    simp only []
    rw [ih (fun x hx => h x (List.mem_cons_of_mem _ hx)) k _ (by simp at hk; omega), hp.trimmed]
    simp

theorem mail_head {eol : Bytes} (he : Eol eol) {fields : List Fld} (h : ∀ f ∈ fields, Field f) (body : Bytes) (c : UInt8)
    (hc : (mail eol fields body).head? = some c) : isSp c = false := by
  unfold mail at hc
  cases fields with
  | nil => rcases he with rfl | rfl <;> (simp at hc; subst hc; decide)
  | cons f fs =>
    have hf := h f (List.mem_cons_self ..)
    have h2 := hf.token
    obtain ⟨d, k, hk⟩ := List.exists_cons_of_ne_nil hf.key
    rw [hk] at h2
    simp only [List.all_cons, Bool.and_eq_true] at h2
    simp [Fld.text, hk] at hc
    subst hc
    exact (token_plain _ h2.1).2.2.2.2

/-- The lines of the fields. -/
def height (fields : List Fld) : Nat := (fields.map fun f => f.more.length + 1).sum

theorem readHeader_mail {eol : Bytes} (he : Eol eol) (body : Bytes) : ∀ (fields : List Fld) (_ : ∀ f ∈ fields, Field f) (k : Nat),
    height fields < k → readHeader k (mail eol fields body) = some (fields.map fun f => (canon f.name, f.value), body) := by
  intro fields
  induction fields with
  | nil =>
    intro _ k hk
    obtain ⟨k, rfl⟩ : ∃ j, k = j + 1 := ⟨k - 1, by omega⟩
    have := readLine_line (l := []) (eol := eol) (rest := body) (by simp) he
    rw [List.nil_append] at this
    simp only [mail, List.flatMap_nil, List.nil_append, readHeader, this, List.map_nil]
  | cons f fs ih =>
    intro h k hk
    simp only [height, List.map_cons, List.sum_cons] at hk
    obtain ⟨k, rfl⟩ : ∃ j, k = j + 1 := ⟨k - 1, by omega⟩
    have hf := h f (List.mem_cons_self ..)
    have hrest := fun x hx => h x (List.mem_cons_of_mem f hx)
    have ih := ih hrest k (by unfold height; omega)
    have hm : mail eol (f :: fs) body = (f.name ++ [58, 32] ++ f.first) ++ eol ++ ((f.more.flatMap fun v => 32 :: v ++ eol) ++ mail eol fs body) := by
      simp [mail, Fld.text]
    have htok : ∀ c ∈ f.name, isToken c = true := by simpa using hf.token
    have hline : ∀ c ∈ f.name ++ [58, 32] ++ f.first, c ≠ 10 ∧ c ≠ 13 := by
      intro c hc
      simp only [List.mem_append, List.mem_cons, List.not_mem_nil, or_false] at hc
      rcases hc with (hc | rfl | rfl) | hc
      · have := token_plain c (htok c hc); exact ⟨this.1, this.2.1⟩
      · decide
      · decide
      · exact hf.first.plain c hc
    rw [hm, readHeader, readLine_line hline he]
    have hcons : ∃ c l, f.name ++ [58, 32] ++ f.first = c :: l := List.exists_cons_of_ne_nil (by simp)
    obtain ⟨c, l, hcl⟩ := hcons
    rw [hcl]
    simp only []
    rw [← hcl, trim_line hf.key hf.token hf.first.trimmed, continued_more he (mail_head he hrest body) f.more hf.more k _ (by omega)]
    simp only []
    rw [if_neg (by simp)]
    have h58 : ∀ c ∈ f.name, decide (c ≠ 58) = true := fun c hc => by simpa using (token_plain c (htok c hc)).2.2.1
    simp only [List.append_assoc, List.dropWhile_append_of_pos h58, List.takeWhile_append_of_pos h58, List.cons_append]
    rw [List.dropWhile_cons_of_neg (by decide), List.takeWhile_cons_of_neg (by decide), ih]
    simp only [List.append_nil, Option.map_some, List.map_cons]
    have hkey : (f.name.reverse.dropWhile fun x => decide (x = 32)).reverse = f.name := by
      have : f.name.reverse.dropWhile (fun x => decide (x = 32)) = f.name.reverse := by
        cases hr : f.name.reverse with
        | nil => rfl
        | cons c s =>
          rw [List.dropWhile_cons_of_neg]
          have hc : c ∈ f.name := by rw [← List.mem_reverse, hr]; exact List.mem_cons_self ..
          simpa using (token_plain c (htok c hc)).2.2.2.1
      rw [this, List.reverse_reverse]
    have hval : ((if f.first = [] then [] else 32 :: f.first) ++ f.more.flatMap fun v => 32 :: v).dropWhile isSp = f.value := by
      unfold Fld.value
      by_cases hv : f.first = []
      · have hmore : f.more = [] := Decidable.byContradiction fun hm => hf.folded hm hv
        rw [if_pos hv, hv, hmore]; rfl
      · rw [if_neg hv, List.cons_append, List.dropWhile_cons_of_pos (by decide), dropWhile_sp]
        intro x hx
        obtain ⟨d, t, hdt⟩ := List.exists_cons_of_ne_nil hv
        rw [hdt] at hx
        simp at hx
        refine (trim_ends hf.first.trimmed).1 x ?_
        rw [hdt, hx]; rfl
    rw [hkey, hval]
    have hne : canon f.name ≠ [] := by
      unfold canon
      rw [if_pos hf.token]
      obtain ⟨d, k, hk⟩ := List.exists_cons_of_ne_nil hf.key
      rw [hk, canonGo]
      simp
    rw [if_neg hne]

theorem height_le (eol : Bytes) (he : Eol eol) (fields : List Fld) (body : Bytes) : height fields < (mail eol fields body).length + 1 := by
  have hpos : 1 ≤ eol.length := by rcases he with rfl | rfl <;> simp
  have hmore : ∀ more : List Bytes, more.length ≤ (more.flatMap fun v => 32 :: v ++ eol).length := by
    intro more
    induction more with
    | nil => simp
    | cons v vs ih =>
      rw [List.flatMap_cons, List.length_append, List.length_cons]
      simp only [List.length_append, List.length_cons] at ih ⊢
      omega
  have : height fields ≤ (fields.flatMap (Fld.text eol)).length := by
    induction fields with
    | nil => simp [height]
    | cons f fs ih =>
      rw [List.flatMap_cons, List.length_append]
      simp only [height, List.map_cons, List.sum_cons] at ih ⊢
      have := hmore f.more
      have ht : (Fld.text eol f).length = f.name.length + 2 + f.first.length + eol.length + (f.more.flatMap fun v => 32 :: v ++ eol).length := by
        simp only [Fld.text, List.length_append, List.length_cons, List.length_nil]
      omega
  simp only [mail, List.length_append]
  omega

/-! ### C128 -/

/-- C128: a mail, with LF or CR LF as the end of its lines, is sent to the recipient in the first field "To" and says the
subject in the first line and then the body, unchanged. Values on several lines are joined with blanks. -/
theorem C128_mail (eol : Bytes) (he : Eol eol) (fields : List Fld) (h : ∀ f ∈ fields, Field f) (body : Bytes)
    (ht : field txtTo fields ≠ []) : parse (mail eol fields body) = some (field txtTo fields, field txtSubject fields ++ 10 :: body) := by
  unfold parse
  rw [readHeader_mail he body fields h _ (height_le eol he fields body)]
  have t1 : txtTo.all isToken = true := by decide +kernel
  have t2 : txtSubject.all isToken = true := by decide +kernel
  simp only [get_field h t1, get_field h t2]
  rw [if_neg ht]

/-- C128: a mail without a recipient is refused. -/
theorem C128_no_recipient (eol : Bytes) (he : Eol eol) (fields : List Fld) (h : ∀ f ∈ fields, Field f) (body : Bytes)
    (ht : field txtTo fields = []) : parse (mail eol fields body) = none := by
  unfold parse
  rw [readHeader_mail he body fields h _ (height_le eol he fields body)]
  have t1 : txtTo.all isToken = true := by decide +kernel
  simp only [get_field h t1]
  rw [if_pos ht]

theorem value_plain {f : Fld} (h : Field f) : 10 ∉ f.value := by
  unfold Fld.value
  intro hm
  rcases List.mem_append.1 hm with hm | hm
  · exact (h.first.plain 10 hm).1 rfl
  · obtain ⟨v, hv, hm⟩ := List.mem_flatMap.1 hm
    rcases List.mem_cons.1 hm with hm | hm
    · exact absurd hm (by decide)
    · exact ((h.more v hv).2.plain 10 hm).1 rfl

theorem field_plain {fields : List Fld} (h : ∀ f ∈ fields, Field f) (name : Bytes) : 10 ∉ field name fields := by
  unfold field
  cases hf : fields.find? fun f => f.name.map lower = name.map lower with
  | none => simp
  | some f =>
    simp only [Option.map_some, Option.getD_some]
    exact value_plain (h f (List.mem_of_find?_eq_some hf))

/-- What `msg add` stores. -/
theorem msgAdd_stored {I : Ids} {db db' : Db} {frm to msg : Bytes} {now : Int} {sign : Bool} {min max : Int}
    (h : msgAdd I db frm to now msg sign min max = .ok db') :
    ∃ fM tM m, I.map frm = some fM ∧ I.map to = some tM ∧ db' = { db with messages := Sql.insert db.messages m } ∧ m.from_ = fM ∧ m.to = tM ∧
      m.message = msg ∧ m.subject = msg.takeWhile (· != 10) ∧ m.outgoing = true ∧ m.toSend = true ∧ m.sent = false ∧ m.sign = sign ∧
      m.minDelay = min ∧ m.maxDelay = max ∧ m.date = now := by
  unfold msgAdd at h
  cases h1 : I.map frm with
  | none => rw [h1] at h; cases h
  | some fM =>
    rw [h1] at h
    simp only at h
    cases h2 : db.getNym I fM with
    | error e => rw [h2] at h; cases h
    | ok p =>
      rw [h2] at h
      simp only at h
      split at h
      · cases h
      · cases h3 : I.map to with
        | none => rw [h3] at h; cases h
        | some tM =>
          rw [h3] at h
          simp only at h
          cases h4 : db.getContact I fM tM with
          | error e => rw [h4] at h; cases h
          | ok q =>
            rw [h4] at h
            simp only at h
            split at h
            · cases h
            · unfold Db.addMessage at h
              repeat' split at h
              all_goals first
                | cases h; done
                | exact absurd rfl ‹¬true = true›
                | skip
              injection h with h
              exact ⟨fM, tM, _, rfl, rfl, h.symm, rfl, rfl, rfl, rfl, rfl, rfl, rfl, rfl, rfl, rfl, rfl⟩

/-- C128: with `--mail-input` the message that is stored for sending goes to the recipient of the mail, has its subject,
and the text is the subject, a line feed and the body. Nothing else changes. -/
theorem C128_stored (I : Ids) (db db' : Db) (frm to : Bytes) (src : Source) (now : Int) (sign : Bool) (min max : Int)
    (eol : Bytes) (he : Eol eol) (fields : List Fld) (hf : ∀ f ∈ fields, Field f) (body : Bytes) (hs : src.text = some (mail eol fields body))
    (h : add I db frm to src true now sign min max = .ok db') :
    ∃ fM tM m, I.map frm = some fM ∧ I.map (field txtTo fields) = some tM ∧ db' = { db with messages := Sql.insert db.messages m } ∧
      m.from_ = fM ∧ m.to = tM ∧ m.message = field txtSubject fields ++ 10 :: body ∧ m.subject = field txtSubject fields ∧
      m.outgoing = true ∧ m.toSend = true ∧ m.sent = false ∧ m.sign = sign ∧ m.minDelay = min ∧ m.maxDelay = max := by
  unfold add input at h
  rw [hs] at h
  simp only [if_true] at h
  by_cases ht : field txtTo fields = []
  · rw [C128_no_recipient eol he fields hf body ht] at h
    cases h
  · rw [C128_mail eol he fields hf body ht] at h
    simp only at h
    obtain ⟨fM, tM, m, a1, a2, a3, a4, a5, a6, a7, a8, a9, a10, a11, a12, a13, _⟩ := msgAdd_stored h
    refine ⟨fM, tM, m, a1, a2, a3, a4, a5, a6, ?_, a8, a9, a10, a11, a12, a13⟩
    rw [a7]
    have hp := field_plain hf txtSubject
    generalize field txtSubject fields = sub at hp
    rw [List.takeWhile_append_of_pos]
    · rw [List.takeWhile_cons_of_neg (by decide), List.append_nil]
    · intro c hc
      simp only [bne_iff_ne, ne_eq]
      rintro rfl
      exact hp hc

/-- C128: without `--mail-input` the message is the file or the standard input byte by byte, or the lines typed. -/
theorem C128_text (I : Ids) (db db' : Db) (frm to : Bytes) (src : Source) (now : Int) (sign : Bool) (min max : Int)
    (h : add I db frm to src false now sign min max = .ok db') :
    ∃ fM tM m t, I.map frm = some fM ∧ I.map to = some tM ∧ db' = { db with messages := Sql.insert db.messages m } ∧ m.from_ = fM ∧ m.to = tM ∧
      m.message = t ∧ m.toSend = true ∧ m.sign = sign ∧ m.minDelay = min ∧ m.maxDelay = max ∧
      (src = .file (some t) ∨ src = .stdin (some t) ∨ ∃ ls, src = .terminal ls true ∧ t = ls.flatMap fun l => l ++ [10]) := by
  unfold add input at h
  cases hs : src.text with
  | none => rw [hs] at h; cases h
  | some t =>
    rw [hs] at h
    simp only [Bool.false_eq_true, if_false] at h
    obtain ⟨fM, tM, m, a1, a2, a3, a4, a5, a6, a7, a8, a9, a10, a11, a12, a13, _⟩ := msgAdd_stored h
    refine ⟨fM, tM, m, t, a1, a2, a3, a4, a5, a6, a9, a11, a12, a13, ?_⟩
    cases src with
    | file c => left; unfold Source.text at hs; simp only at hs; rw [hs]
    | stdin c => right; left; unfold Source.text at hs; simp only at hs; rw [hs]
    | terminal ls eof =>
      right; right
      unfold Source.text at hs
      simp only at hs
      cases eof with
      | false => cases hs
      | true =>
        simp only [if_true, Option.some.injEq] at hs
        exact ⟨ls, rfl, hs.symm⟩

/-- A mail with a folded subject, a name in lower case and a second recipient. -/
def sample : List Fld :=
  [⟨"From".toUTF8.data.toList, "c@d".toUTF8.data.toList, []⟩, ⟨"to".toUTF8.data.toList, "a@b".toUTF8.data.toList, []⟩,
    ⟨"Subject".toUTF8.data.toList, "one".toUTF8.data.toList, ["two".toUTF8.data.toList]⟩, ⟨"To".toUTF8.data.toList, "e@f".toUTF8.data.toList, []⟩,
    ⟨"X-Empty".toUTF8.data.toList, [], []⟩]

theorem part_of (v : Bytes) (h1 : v.all (fun c => c != 10 && c != 13) = true) (h2 : trim v = v) : Part v :=
  ⟨fun c hc => by have := List.all_eq_true.1 h1 c hc; simpa using this, h2⟩

example : Eol [13, 10] ∧ (∀ f ∈ sample, Field f) ∧ field txtTo sample = "a@b".toUTF8.data.toList ∧ field txtSubject sample = "one two".toUTF8.data.toList ∧
    parse (mail [13, 10] sample "body\r\n".toUTF8.data.toList) = some ("a@b".toUTF8.data.toList, "one two\nbody\r\n".toUTF8.data.toList) := by
  refine ⟨.inr rfl, ?_, by decide +kernel, by decide +kernel, by decide +kernel⟩
  intro f hf
  simp only [sample, List.mem_cons, List.not_mem_nil, or_false] at hf
  rcases hf with rfl | rfl | rfl | rfl | rfl
  · exact ⟨by decide +kernel, by decide +kernel, part_of _ (by decide +kernel) (by decide +kernel), nofun, nofun⟩
  · exact ⟨by decide +kernel, by decide +kernel, part_of _ (by decide +kernel) (by decide +kernel), nofun, nofun⟩
  · refine ⟨by decide +kernel, by decide +kernel, part_of _ (by decide +kernel) (by decide +kernel), ?_, fun _ => by decide +kernel⟩
    intro v hv
    rw [List.mem_singleton] at hv
    subst hv
    exact ⟨by decide +kernel, part_of _ (by decide +kernel) (by decide +kernel)⟩
  · exact ⟨by decide +kernel, by decide +kernel, part_of _ (by decide +kernel) (by decide +kernel), nofun, nofun⟩
  · exact ⟨by decide +kernel, by decide +kernel, part_of _ (by decide +kernel) (by decide +kernel), nofun, nofun⟩

/-- The hypotheses of `C128_stored` and `C128_text` are met. -/
example : (∃ db', add plainI contactDb [1, 64, 2] [] (.stdin (some (mail [10] [⟨txtTo, [3, 64, 2], []⟩] [72, 105]))) true 5 false 120 300 = .ok db') ∧
    ∃ db', add plainI contactDb [1, 64, 2] [3, 64, 2] (.terminal [[72], [105]] true) false 5 false 120 300 = .ok db' := ⟨⟨_, rfl⟩, ⟨_, rfl⟩⟩

end Verif.Ctrl.MailInput

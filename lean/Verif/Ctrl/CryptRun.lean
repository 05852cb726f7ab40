/-
C122: `mutecrypt` as a process of its own. How `mutecrypt decrypt` and `mutecrypt encrypt` (cryptengine/decrypt.go, cryptengine/encrypt.go) write
their results to the standard output and their reports to the standard error, how they can be stopped on the way, and how the engine puts the
pieces together again (ctrlengine/msg.go:41-104, 649-713).
-/
import Verif.Msg.DecProps
import Verif.Msg.EndToEnd
import Verif.Msg.ToyCodec
import Verif.Ctrl.InQueue
import Verif.Ctrl.Send
import Verif.Ctrl.ScannerProps
import Verif.Ctrl.TransferProps
import Verif.Ctrl.Deliver
set_option autoImplicit false

namespace Verif.Ctrl.CryptRun
open Verif.Msg Verif.Ctrl.Transfer
open Prog
open Wire (readFirst)
open Verif.Ctrl.Deliver (rtrim trim_cons rtrim_keep rtrim_split)

/-- A write of the process, to its standard output or its standard error. -/
inductive Ev
  | out (b : Bytes)
  | err (b : Bytes)
  deriving DecidableEq

/-- What arrives in the buffers of the engine (msg.go:61-64, 667-670). -/
def stdout : List Ev → Bytes
  | [] => []
  | .out b :: t => b ++ stdout t
  | .err _ :: t => stdout t
def stderr : List Ev → Bytes
  | [] => []
  | .out _ :: t => stderr t
  | .err b :: t => b ++ stderr t

def txtSender : Bytes := "SENDERIDENTITY:".toUTF8.data.toList
def txtSignature : Bytes := "SIGNATURE:\t".toUTF8.data.toList
def txtNym : Bytes := "NYMADDRESS:".toUTF8.data.toList
def txtFatal : Bytes := "mutecrypt: error: ".toUTF8.data.toList
def txtPanic : Bytes := "panic: ".toUTF8.data.toList

/-- The text of `msg.ErrNoPreHeaderKey` (msg/errors.go). -/
def txtNoKey : Bytes := "msg: could not find key to decrypt pre-header".toUTF8.data.toList

/-- `util.Fatal` (util/util.go:22-30): the error of the command. -/
def fatal (t : Bytes) : Ev := .err (txtFatal ++ t ++ [10])

/-- What the errors before the decryption print (base64, the first packet, the version): any texts. -/
structure Texts where
  base64 : Bytes
  first : Wire.Err → Bytes
  version : Bytes
  decrypt : Err → Bytes
  trace : Bytes

/-- `CryptEngine.decrypt` (cryptengine/decrypt.go:40-87) called by `mutecrypt decrypt`: its writes, and whether it exits with status 0. The content
is written by `msg.Decrypt` in one piece. The base64 decoder is that of the whole input (simplified: the code decodes while it reads). -/
def decryptRun (P : Prims) (T : Texts) (ids : List UID) (num : UInt64) (fresh enc : Bytes) (st : MemStore) : List Ev × Bool :=
  match P.unb64 enc with
  | none => ([fatal T.base64], false)
  | some b =>
    match readFirst b with
    | .err e => ([fatal (T.first e)], false)
    | .panic => ([.err (txtPanic ++ T.trace)], false)
    | .ok (v, pre, rest) =>
      if v ≠ Wire.version then ([fatal T.version], false)
      else
        let r := (decrypt P ⟨ids, pre, rest, num, fresh⟩).run (MemStore.handle P) st
        let w := Ev.out (r.2.out.drop st.out.length)
        match r.1 with
        | .err e => ([w, fatal (T.decrypt e)], false)
        | .panic => ([w, .err (txtPanic ++ T.trace)], false)
        | .ok (sender, sig) =>
          (w :: .err (txtSender ++ 9 :: sender ++ [10]) :: (if sig = [] then [] else [.err (txtSignature ++ sig ++ [10])]), true)

/-- `CryptEngine.encrypt` (cryptengine/encrypt.go:20-81) called by `mutecrypt encrypt`, from the call of `msg.Encrypt` on (line 72). -/
def encryptRun (P : Prims) (T : Texts) (a : EncArgs) (rnd : Rnd) (st : MemStore) : List Ev × Bool :=
  let r := (encrypt P a rnd).run (MemStore.handle P) st
  let w := Ev.out (r.2.out.drop st.out.length)
  match r.1 with
  | .err e => ([w, fatal (T.decrypt e)], false)
  | .panic => ([w, .err (txtPanic ++ T.trace)], false)
  | .ok nym => ([w, .err (txtNym ++ 9 :: nym ++ [10])], true)

/-- A process that is stopped on the way: after some of its writes; the last one may be cut if it was one to the standard output. The reports are
shorter than what a pipe takes at once and are written in one piece. -/
inductive Cut : List Ev → List Ev → Prop
  | stop (evs : List Ev) : Cut evs []
  | part (b : Bytes) (k : Nat) (evs : List Ev) : Cut (.out b :: evs) [.out (b.take k)]
  | next (e : Ev) {evs evs' : List Ev} (h : Cut evs evs') : Cut (e :: evs) (e :: evs')

/-- `mutecryptDecrypt` (msg.go:684-712): what the engine makes of the exit status and the two buffers. The scanner gives the first line, if it is
not too long (`hear_scanner`). -/
def hearDecrypt (out err : Bytes) (ok : Bool) : MsgReply :=
  if ok = false then if txtNoKey.isSuffixOf (trim err) then .decrypted [] [] else .failed
  else if (err.takeWhile (· ≠ 10)).length ≤ 65535 then
    match splitTab (Scan.firstLine err) with
    | [a, b] => if a = txtSender then .decrypted b out else .failed
    | _ => .failed
  else .failed

/-- `mutecryptEncrypt` (msg.go:87-103): the encrypted message and the nym address. -/
def hearEncrypt (out err : Bytes) (ok : Bool) : Option (Bytes × Bytes) :=
  if ok = false then none
  else match splitTab (trim err) with
    | [a, b] => if a = txtNym then some (out, b) else none
    | _ => none

/-! ### specification -/

/-- The message `enc` is authentic: it decodes to a pre-header and packets with a header that one of the identities can open, the packets are
covered by an HMAC under the message key the store has for the session and the index in the header, and they carry the content; a signature
verifies. `sender` is what the header names. -/
def Authentic (P : Prims) (ids : List UID) (num : UInt64) (fresh enc : Bytes) (st : MemStore) (sender content : Bytes) : Prop :=
  ∃ b pre rest, P.unb64 enc = some b ∧ readFirst b = .ok (1, pre, rest) ∧
    ∃ headerPub u h body packet mk auth mac tail signature st1,
      (decHead P ⟨ids, pre, rest, num, fresh⟩).out = .ok (headerPub, u, h, body) ∧ rest = packet ++ body ∧ body = auth ++ mac ++ tail ∧
      mac = P.hmac (deriveSymmetricKeys P mk).2 auth ∧ StoreLE st st1 ∧
      st1.getMessageKey P (decSessionKey P u h) false h.senderMessageCount = .ok mk ∧ Carries P mk auth content signature ∧
      sender = h.senderIdentity ∧
      (∀ s, signature = some s → ∃ uid pk, P.parseUID h.senderUID = some uid ∧ uid.sigKey.pub32 P = some pk ∧ P.verify pk (P.sha512 content) s = true)

/-- A name that can be reported on one line in one field. -/
def Plain (s : Bytes) : Prop := 9 ∉ s ∧ 10 ∉ s ∧ s.getLast? ≠ some 13 ∧ s.length ≤ 60000

/-- A nym address that can be reported: not empty, no tab, and no blank at its end. -/
def PlainNym (s : Bytes) : Prop := 9 ∉ s ∧ ∃ s' c, s = s' ++ [c] ∧ isBlank c = false

/-! ### lemmas -/

theorem hear_scanner (out err : Bytes) : hearDecrypt out err true =
    match Scan.readline (err.length + 3) [err] .eof with
    | some (.ok line) => (match splitTab line with | [a, b] => if a = txtSender then .decrypted b out else .failed | _ => .failed)
    | _ => .failed := by
  rw [Scan.C113_readline [err] (err.length + 3) (by simp)]
  simp only [List.flatten_cons, List.flatten_nil, List.append_nil, hearDecrypt]
  by_cases h : (err.takeWhile (· ≠ 10)).length ≤ 65535
  · rw [if_neg (by simp), if_pos h, if_pos h]
  · rw [if_neg (by simp), if_neg h, if_neg h]

theorem splitTab_ne (b : Bytes) : splitTab b ≠ [] := by
  cases b with
  | nil => simp [splitTab]
  | cons c t =>
    unfold splitTab
    split
    · simp
    · split <;> simp

/-- Two fields mean exactly one tab. -/
theorem splitTab_pair {s a b : Bytes} (h : splitTab s = [a, b]) : s = a ++ 9 :: b ∧ 9 ∉ a ∧ 9 ∉ b := by
  have one : ∀ (s a : Bytes), splitTab s = [a] → s = a ∧ 9 ∉ a := by
    intro s
    induction s with
    | nil => intro a h; simp only [splitTab, List.cons.injEq, and_true] at h; subst h; simp
    | cons c t ih =>
      intro a h
      unfold splitTab at h
      split at h
      · exact absurd (List.cons.inj h).2 (splitTab_ne t)
      · rename_i hc
        split at h
        · rename_i h0; exact absurd h0 (splitTab_ne t)
        · rename_i r rs hr
          obtain ⟨h1, h2⟩ := List.cons.inj h
          subst h1 h2
          obtain ⟨rfl, g⟩ := ih _ hr
          exact ⟨rfl, by simp only [List.mem_cons, not_or]; exact ⟨fun e => hc e.symm, g⟩⟩
  induction s generalizing a with
  | nil => simp [splitTab] at h
  | cons c t ih =>
    unfold splitTab at h
    split at h
    · rename_i hc
      subst hc
      obtain ⟨h1, h2⟩ := List.cons.inj h
      subst h1
      obtain ⟨rfl, g⟩ := one _ _ h2
      exact ⟨rfl, by simp, g⟩
    · rename_i hc
      split at h
      · rename_i h0; exact absurd h0 (splitTab_ne t)
      · rename_i r rs hr
        obtain ⟨h1, h2⟩ := List.cons.inj h
        subst h1 h2
        obtain ⟨rfl, g1, g2⟩ := ih hr
        exact ⟨rfl, by simp only [List.mem_cons, not_or]; exact ⟨fun e => hc e.symm, g1⟩, g2⟩

theorem splitTab_more {a b : Bytes} (ha : 9 ∉ a) (hb : 9 ∈ b) : ∀ x y, splitTab (a ++ 9 :: b) ≠ [x, y] := by
  intro x y h
  obtain ⟨e, h1, h2⟩ := splitTab_pair h
  have : a = x := by
    have t1 := List.takeWhile_append_of_pos (p := (fun c : UInt8 => c != 9)) (l₁ := a) (l₂ := 9 :: b)
      (fun c hc => by simp only [bne_iff_ne, ne_eq]; rintro rfl; exact ha hc)
    have t2 := List.takeWhile_append_of_pos (p := (fun c : UInt8 => c != 9)) (l₁ := x) (l₂ := 9 :: y)
      (fun c hc => by simp only [bne_iff_ne, ne_eq]; rintro rfl; exact h1 hc)
    rw [e, t2] at t1
    simpa using t1.symm
  subst this
  have := List.append_cancel_left e
  exact h2 ((List.cons.inj this).2 ▸ hb)

theorem takeWhile_line {p t : Bytes} (h : 10 ∉ p) : (p ++ 10 :: t).takeWhile (· ≠ 10) = p := by
  rw [List.takeWhile_append_of_pos (fun c hc => by simp only [ne_eq, decide_eq_true_eq]; rintro rfl; exact h hc)]
  simp

theorem takeWhile_pre {p t : Bytes} (h : 10 ∉ p) : (p ++ t).takeWhile (· ≠ 10) = p ++ t.takeWhile (· ≠ 10) :=
  List.takeWhile_append_of_pos (fun c hc => by simp only [ne_eq, decide_eq_true_eq]; rintro rfl; exact h hc)

/-- The first line begins with what the text begins with, unless there is only a carriage return after it. -/
theorem firstLine_pre {p t : Bytes} (h : 10 ∉ p) (hl : p.getLast? ≠ some 13) : Scan.firstLine (p ++ t) = p ++ Scan.firstLine t := by
  unfold Scan.firstLine
  rw [takeWhile_pre h]
  generalize t.takeWhile (· ≠ 10) = q
  rcases q with _ | ⟨c, q⟩
  · rw [List.append_nil, if_neg hl, if_neg (by simp), List.append_nil]
  · have e : (p ++ c :: q).getLast? = (c :: q).getLast? := by rw [List.getLast?_append]; simp [List.getLast?_cons]
    rw [e]
    split
    · rw [List.dropLast_append_of_ne_nil (by simp)]
    · rfl

theorem firstLine_end (s t : Bytes) : Scan.firstLine (s ++ 10 :: t) = Scan.firstLine s := by
  unfold Scan.firstLine
  have : (s ++ 10 :: t).takeWhile (· ≠ 10) = s.takeWhile (· ≠ 10) := by
    induction s with
    | nil => simp
    | cons c s ih =>
      simp only [List.cons_append, List.takeWhile_cons]
      split
      · rw [ih]
      · rfl
  rw [this]

theorem firstLine_plain {s : Bytes} (h : 10 ∉ s) (hl : s.getLast? ≠ some 13) : Scan.firstLine s = s := by
  unfold Scan.firstLine
  have : s.takeWhile (· ≠ 10) = s := by
    have := takeWhile_pre (t := []) h
    simpa using this
  rw [this, if_neg hl]

/-- A text that starts otherwise than the report of a sender is not taken for one. -/
theorem hear_other {out t : Bytes} {c : UInt8} (hc : c ≠ 83) (h13 : c ≠ 13) (ok : Bool) {s m : Bytes} (hs : s ≠ []) :
    hearDecrypt out (c :: t) ok ≠ .decrypted s m := by
  unfold hearDecrypt
  split
  · split
    · intro h; injection h with h1 h2; exact hs h1.symm
    · nofun
  split
  · intro h
    split at h
    · rename_i a b hab
      split at h
      · rename_i ha
        obtain ⟨e, -, -⟩ := splitTab_pair hab
        rw [ha] at e
        by_cases h10 : c = 10
        · subst h10
          have : Scan.firstLine (10 :: t) = [] := by simp [Scan.firstLine]
          rw [this] at e
          exact absurd e (by simp)
        · have := firstLine_pre (p := [c]) (t := t) (by simp; exact fun e => h10 e.symm) (by simpa using h13)
          rw [List.singleton_append] at this
          rw [this] at e
          have e' := congrArg List.head? e
          have hx : txtSender = 83 :: txtSender.tail := by decide +kernel
          rw [hx] at e'
          simp only [List.cons_append, List.head?_cons, Option.some.injEq, List.nil_append] at e'
          exact hc e'
      · cases h
    · cases h
  · nofun

theorem hear_empty {out : Bytes} (ok : Bool) {s m : Bytes} (hs : s ≠ []) : hearDecrypt out [] ok ≠ .decrypted s m := by
  unfold hearDecrypt
  split
  · split
    · intro h; injection h with h1 h2; exact hs h1.symm
    · nofun
  · simp [Scan.firstLine, splitTab]

/-- The report of a sender, whatever follows it. -/
theorem hear_sender (out sender t : Bytes) {s m : Bytes} (ok : Bool) (hs : s ≠ []) (h : hearDecrypt out (txtSender ++ 9 :: sender ++ 10 :: t) ok = .decrypted s m) :
    s = Scan.firstLine sender ∧ m = out ∧ 9 ∉ s := by
  unfold hearDecrypt at h
  split at h
  · split at h
    · injection h with h1 h2; exact absurd h1.symm hs
    · cases h
  split at h
  · split at h
    · rename_i a b hab
      split at h
      · rename_i ha
        injection h with h1 h2
        subst h1 h2 ha
        obtain ⟨e, -, h9⟩ := splitTab_pair hab
        rw [show txtSender ++ 9 :: sender ++ 10 :: t = (txtSender ++ [9]) ++ (sender ++ 10 :: t) by simp, firstLine_pre (by decide +kernel) (by decide +kernel),
          firstLine_end, show txtSender ++ 9 :: b = (txtSender ++ [9]) ++ b by simp] at e
        exact ⟨(List.append_cancel_left e).symm, rfl, h9⟩
      · cases h
    · cases h
  · cases h

theorem hear_plain (out t : Bytes) {sender : Bytes} (h : Plain sender) : hearDecrypt out (txtSender ++ 9 :: sender ++ 10 :: t) true = .decrypted sender out := by
  obtain ⟨h9, h10, h13, hl⟩ := h
  unfold hearDecrypt
  have e0 : txtSender ++ 9 :: sender ++ 10 :: t = (txtSender ++ [9] ++ sender) ++ 10 :: t := by simp
  have n10 : 10 ∉ txtSender ++ [9] ++ sender := by
    rw [List.mem_append, not_or]
    exact ⟨by decide +kernel, h10⟩
  have e1 : (txtSender ++ 9 :: sender ++ 10 :: t).takeWhile (· ≠ 10) = txtSender ++ [9] ++ sender := by rw [e0, takeWhile_line n10]
  have e2 : Scan.firstLine (txtSender ++ 9 :: sender ++ 10 :: t) = txtSender ++ 9 :: sender := by
    rw [show txtSender ++ 9 :: sender ++ 10 :: t = (txtSender ++ [9]) ++ (sender ++ 10 :: t) by simp, firstLine_pre (by decide +kernel) (by decide +kernel),
      firstLine_end, firstLine_plain h10 h13]
    simp
  rw [if_neg (by simp), e1, e2, if_pos, splitTab_two (by decide +kernel) h9]
  · simp
  · rw [List.length_append, show (txtSender ++ [9] : Bytes).length = 16 by decide +kernel]
    omega

theorem hear_tab (out t : Bytes) {sender : Bytes} (h9 : 9 ∈ Scan.firstLine sender) : hearDecrypt out (txtSender ++ 9 :: sender ++ 10 :: t) true = .failed := by
  unfold hearDecrypt
  have e2 : Scan.firstLine (txtSender ++ 9 :: sender ++ 10 :: t) = txtSender ++ 9 :: Scan.firstLine sender := by
    rw [show txtSender ++ 9 :: sender ++ 10 :: t = (txtSender ++ [9]) ++ (sender ++ 10 :: t) by simp, firstLine_pre (by decide +kernel) (by decide +kernel),
      firstLine_end]
    simp
  rw [if_neg (by simp), e2]
  split
  · split
    · rename_i a b hab
      exact absurd hab (splitTab_more (by decide +kernel) h9 a b)
    · rfl
  · rfl

/-- What the cut run of two writes, or three, leaves in the buffers. -/
theorem cut_two {w : Bytes} {x : Bytes} {rest evs : List Ev} (h : Cut (.out w :: .err x :: rest) evs) :
    stderr evs = [] ∨ ∃ t, stdout evs = w ++ stdout t ∧ stderr evs = x ++ stderr t ∧ Cut rest t := by
  cases h with
  | stop => exact .inl rfl
  | part k => exact .inl rfl
  | next _ h =>
    cases h with
    | stop => exact .inl rfl
    | @next _ _ t h => exact .inr ⟨t, rfl, rfl, h⟩

theorem cut_one {x : Bytes} {evs : List Ev} (h : Cut [.err x] evs) : evs = [] ∨ evs = [.err x] := by
  cases h with
  | stop => exact .inl rfl
  | next _ h =>
    cases h with
    | stop => exact .inr rfl

theorem txtFatal_cons : ∃ t, txtFatal = 109 :: t := ⟨txtFatal.tail, by decide +kernel⟩
theorem txtPanic_cons : ∃ t, txtPanic = 112 :: t := ⟨txtPanic.tail, by decide +kernel⟩

theorem decrypt_out (P : Prims) (a : DecArgs) (st st' : MemStore) (x : Str × Str) (h : (decrypt P a).run (MemStore.handle P) st = (.ok x, st')) :
    ∃ c, st'.out = st.out ++ c := by
  obtain ⟨_, _, _, _, _, _, _, _, _, c, _, _, _, _, _, _, _, _, _, h8, _⟩ := C10_success_is_authenticated P a st st' x.1 x.2 h
  exact ⟨c, h8⟩

/-- What is heard as a message is the result of a decryption that succeeded. -/
theorem heard_ok {P : Prims} {T : Texts} {ids : List UID} {num : UInt64} {fresh enc : Bytes} {st : MemStore} {evs : List Ev} {ok : Bool} {s m : Bytes}
    (hc : Cut (decryptRun P T ids num fresh enc st).1 evs) (hs : s ≠ []) (h : hearDecrypt (stdout evs) (stderr evs) ok = .decrypted s m) :
    ∃ b pre rest sender sig st', P.unb64 enc = some b ∧ readFirst b = .ok (1, pre, rest) ∧
      (decrypt P ⟨ids, pre, rest, num, fresh⟩).run (MemStore.handle P) st = (.ok (sender, sig), st') ∧ st'.out = st.out ++ m ∧ s = Scan.firstLine sender ∧ 9 ∉ s := by
  have one : ∀ (c : UInt8) (t : Bytes), c ≠ 83 → c ≠ 13 → Cut [.err (c :: t)] evs → False := by
    intro c t hc1 hc2 hcut
    rcases cut_one hcut with rfl | rfl
    · exact hear_empty ok hs h
    · simp only [stderr, List.append_nil] at h
      exact hear_other hc1 hc2 ok hs h
  have two : ∀ (w : Bytes) (c : UInt8) (t : Bytes), c ≠ 83 → c ≠ 13 → Cut [.out w, .err (c :: t)] evs → False := by
    intro w c t hc1 hc2 hcut
    rcases cut_two hcut with g | ⟨t', -, g2, g3⟩
    · rw [g] at h; exact hear_empty ok hs h
    · rw [g2] at h
      exact hear_other hc1 hc2 ok hs h
  obtain ⟨f, hf⟩ := txtFatal_cons
  obtain ⟨p, hp⟩ := txtPanic_cons
  unfold decryptRun at hc
  split at hc
  · exact (one 109 _ (by decide) (by decide) (by simpa only [fatal, hf, List.cons_append] using hc)).elim
  rename_i b hb
  split at hc
  · exact (one 109 _ (by decide) (by decide) (by simpa only [fatal, hf, List.cons_append] using hc)).elim
  · exact (one 112 _ (by decide) (by decide) (by simpa only [hp, List.cons_append] using hc)).elim
  rename_i v pre rest hfst
  split at hc
  · exact (one 109 _ (by decide) (by decide) (by simpa only [fatal, hf, List.cons_append] using hc)).elim
  rename_i hv
  have hv : v = 1 := Decidable.of_not_not hv
  subst hv
  rcases hr : (decrypt P ⟨ids, pre, rest, num, fresh⟩).run (MemStore.handle P) st with ⟨r, st'⟩
  rw [hr] at hc
  dsimp only at hc
  rcases r with ⟨sender, sig⟩ | e | _
  · dsimp only at hc
    obtain ⟨c, hout⟩ := decrypt_out P _ _ _ _ hr
    rw [hout, List.drop_left] at hc
    rcases cut_two hc with g | ⟨t, g1, g2, g3⟩
    · rw [g] at h; exact (hear_empty ok hs h).elim
    · have ho : stdout t = [] := by
        split at g3
        · cases g3; rfl
        · rcases cut_one g3 with rfl | rfl <;> rfl
      rw [g1, g2, ho, List.append_nil, show txtSender ++ 9 :: sender ++ [10] ++ stderr t = txtSender ++ 9 :: sender ++ 10 :: stderr t by simp] at h
      obtain ⟨a1, a2, a3⟩ := hear_sender _ _ _ ok hs h
      exact ⟨b, pre, rest, sender, sig, st', hb, hfst, hr, by rw [hout, a2], a1, a3⟩
  · exact (two _ 109 _ (by decide) (by decide) (by simpa only [fatal, hf, List.cons_append] using hc)).elim
  · exact (two _ 112 _ (by decide) (by decide) (by simpa only [hp, List.cons_append] using hc)).elim

/-! ### the property -/

/-- C122: whatever `mutecrypt decrypt` is given, wherever it is stopped and whatever its exit status is: if the engine takes something for a message
with a sender, then the message is authentic, what is taken is its whole content, and the sender is what the header names (its first line). The
content that `mutecrypt` writes before it has checked the authentication (C11) is never taken. -/
theorem C122_authenticated (P : Prims) (T : Texts) (ids : List UID) (num : UInt64) (fresh enc : Bytes) (st : MemStore) (evs : List Ev) (ok : Bool)
    (sender msg : Bytes) (hc : Cut (decryptRun P T ids num fresh enc st).1 evs) (hs : sender ≠ [])
    (h : hearDecrypt (stdout evs) (stderr evs) ok = .decrypted sender msg) :
    ∃ full, Authentic P ids num fresh enc st full msg ∧ sender = Scan.firstLine full := by
  obtain ⟨b, pre, rest, full, sig, st', h1, h2, h3, h4, h5, -⟩ := heard_ok hc hs h
  refine ⟨full, ⟨b, pre, rest, h1, h2, ?_⟩, h5⟩
  obtain ⟨hp, u, hd, body, pk, mk, auth, mac, tl, content, sg, st1, a1, a2, a3, a4, a5, a6, a7, a8, a9, a10⟩ := C10_success_is_authenticated P _ _ _ _ _ h3
  have : content = msg := by
    rw [h4] at a8
    exact (List.append_cancel_left a8).symm
  subst this
  refine ⟨hp, u, hd, body, pk, mk, auth, mac, tl, sg, st1, a1, a2, a3, a4, a5, a6, a7, a9, ?_⟩
  rintro s rfl
  obtain ⟨-, -, uid, k, g⟩ := a10
  exact ⟨uid, k, g⟩

/-- C122: a run that is not stopped and that decrypts a message from a plainly named sender is heard exactly. -/
theorem C122_exact (P : Prims) (T : Texts) (ids : List UID) (num : UInt64) (fresh enc b pre rest : Bytes) (st st' : MemStore) (sender sig : Bytes)
    (h1 : P.unb64 enc = some b) (h2 : readFirst b = .ok (1, pre, rest))
    (h3 : (decrypt P ⟨ids, pre, rest, num, fresh⟩).run (MemStore.handle P) st = (.ok (sender, sig), st')) (hp : Plain sender) :
    ∃ content, st'.out = st.out ++ content ∧
      hearDecrypt (stdout (decryptRun P T ids num fresh enc st).1) (stderr (decryptRun P T ids num fresh enc st).1) (decryptRun P T ids num fresh enc st).2 =
        .decrypted sender content := by
  obtain ⟨c, hout⟩ := decrypt_out P _ _ _ _ h3
  refine ⟨c, hout, ?_⟩
  unfold decryptRun
  rw [h1]
  simp only [h2]
  rw [if_neg (by decide), h3]
  simp only [hout, List.drop_left]
  have : ∀ l, stdout (.out c :: .err (txtSender ++ 9 :: sender ++ [10]) :: (if sig = [] then [] else [.err l])) = c ∧
      ∃ t, stderr (.out c :: .err (txtSender ++ 9 :: sender ++ [10]) :: (if sig = [] then [] else [.err l])) = txtSender ++ 9 :: sender ++ 10 :: t := by
    intro l
    split
    · exact ⟨by simp [stdout], [], by simp [stderr]⟩
    · exact ⟨by simp [stdout], l, by simp [stderr]⟩
  obtain ⟨g1, t, g2⟩ := this (txtSignature ++ sig ++ [10])
  rw [g1, g2]
  exact hear_plain c t hp

/-- C122: if there is no key for the message, it is dropped without blocking the others; any other error is one. -/
theorem C122_no_key (P : Prims) (T : Texts) (ids : List UID) (num : UInt64) (fresh enc b pre rest : Bytes) (st st' : MemStore) (e : Err)
    (h1 : P.unb64 enc = some b) (h2 : readFirst b = .ok (1, pre, rest))
    (h3 : (decrypt P ⟨ids, pre, rest, num, fresh⟩).run (MemStore.handle P) st = (.err e, st')) (ht : T.decrypt .noPreHeaderKey = txtNoKey) :
    let r := decryptRun P T ids num fresh enc st
    (e = .noPreHeaderKey → hearDecrypt (stdout r.1) (stderr r.1) r.2 = .decrypted [] []) ∧
    ((∃ t c, T.decrypt e = t ++ [c] ∧ isBlank c = false ∧ ¬ txtNoKey <:+ txtFatal ++ T.decrypt e) → hearDecrypt (stdout r.1) (stderr r.1) r.2 = .failed) := by
  have key : ∀ t, (∃ t' c, t = t' ++ [c] ∧ isBlank c = false) → trim (txtFatal ++ t ++ [10]) = txtFatal ++ t := by
    rintro t ⟨t', c, rfl, hc⟩
    obtain ⟨f, hf⟩ := txtFatal_cons
    rw [show txtFatal ++ (t' ++ [c]) ++ [10] = 109 :: (f ++ (t' ++ [c]) ++ [10]) by rw [hf]; rfl, trim_cons _ _ (by decide),
      show 109 :: (f ++ (t' ++ [c]) ++ [10]) = (109 :: (f ++ t') ++ [c]) ++ [10] by simp, rtrim_keep _ _ ⟨_, c, rfl, hc⟩ (by simp; decide), hf]
    simp
  have hr : decryptRun P T ids num fresh enc st = ([.out (st'.out.drop st.out.length), fatal (T.decrypt e)], false) := by
    unfold decryptRun
    rw [h1]
    simp only [h2]
    rw [if_neg (by decide), h3]
  simp only [hr, stderr, fatal, List.append_nil, hearDecrypt, if_true]
  refine ⟨?_, ?_⟩
  · rintro rfl
    rw [ht, key _ ⟨txtNoKey.dropLast, 114, by decide +kernel, by decide⟩, if_pos (by decide +kernel)]
  · rintro ⟨t, c, h, hc, hn⟩
    rw [key _ ⟨t, c, h, hc⟩, if_neg]
    simpa using hn

/-! ### the inbox -/

open Verif.Sql Verif.Msgdb

theorem contactAdd_messages {I : Ids} {db db' : Db} {my s f : Bytes} {ty : Int} {b : Bool} (h : contactAdd I db my s f ty b = .ok db') : db'.messages = db.messages := by
  unfold contactAdd at h
  split at h
  · unfold contactAddMapped at h
    split at h
    · cases h
    split at h
    · split at h
      · unfold Db.addContact at h
        repeat' split at h
        all_goals first
          | cases h; done
          | (injection h with h; subst h; rfl)
      · injection h with h; subst h; rfl
    · split at h
      · unfold add at h
        split at h
        · cases h
        split at h
        · cases h
        unfold Db.addContact at h
        repeat' split at h
        all_goals first
          | cases h; done
          | (injection h with h; subst h; rfl)
      · cases h
  · cases h

/-- What a row of the in-queue gives, if its message is `enc`. -/
def Gives (D : Nat → InReply) (r : Nat × InEntry) (x : Received) : Prop :=
  ∃ sender msg, (D r.1).message = .decrypted sender msg ∧ sender ≠ [] ∧ x = ⟨r.2.myID, sender, r.2.date, msg⟩

/-- The row as it is after its envelope was opened. -/
def Opened (D : Nat → InReply) (r r' : Nat × InEntry) : Prop :=
  r'.1 = r.1 ∧ r.2.envelope = true ∧ r'.2.envelope = false ∧ r'.2.myID = r.2.myID ∧ r'.2.date = r.2.date ∧ (D r.1).envelope = .opened r'.2.msg

theorem step_sources {I : Ids} {db db' : Db} (hI : I.map [] ≠ some []) (hw : WF I db) {D : Nat → InReply} (h : procStep I D db = .next db') :
    (∀ x ∈ inbox db'.messages, x ∈ inbox db.messages ∨ ∃ r ∈ db.inQueue, r.2.envelope = false ∧ Gives D r x) ∧
    (∀ r' ∈ db'.inQueue, r' ∈ db.inQueue ∨ ∃ r ∈ db.inQueue, Opened D r r') := by
  cases hq : db.inQueue with
  | nil =>
    exfalso
    simp only [procStep, Db.getInQueue, hq, firstAsc] at h
    cases h
  | cons r t =>
    obtain ⟨i, e⟩ := r
    obtain ⟨q, n, h1, rfl, h3, h4, h5, h6, h7, h8⟩ := getInQueue_cons hI hw hq
    have hs : Sorted ((q.iqIdx, e) :: t) := by rw [← hq]; exact hw.inQueue
    simp only [procStep, h1] at h
    split at h
    · rename_i henv
      rw [h5] at henv
      unfold procEnvelope at h
      split at h
      · cases h
      split at h
      · cases h
      · injection h with h; subst h
        refine ⟨fun x hx => .inl hx, fun r hr => .inl ?_⟩
        simp only [Db.delInQueue, hq, deleteId_head hs] at hr
        exact List.mem_cons_of_mem _ hr
      · rename_i dec hdec
        injection h with h; subst h
        refine ⟨fun x hx => .inl hx, fun r hr => ?_⟩
        simp only [Db.setInQueue, hq, updateId_head _ hs] at hr
        rcases List.mem_cons.mp hr with rfl | hr
        · exact .inr ⟨_, List.mem_cons_self, rfl, henv, rfl, rfl, rfl, hdec⟩
        · exact .inl (List.mem_cons_of_mem _ hr)
    · rename_i henv
      rw [h5] at henv
      have henv : e.envelope = false := by simpa using henv
      unfold procMessage at h
      split at h
      · cases h
      rename_i sender msg hm
      split at h
      · injection h with h; subst h
        refine ⟨fun x hx => .inl hx, fun r hr => .inl ?_⟩
        simp only [Db.delInQueue, hq, deleteId_head hs] at hr
        exact List.mem_cons_of_mem _ hr
      rename_i h0
      split at h
      · cases h
      split at h
      · split at h
        · cases h
        rename_i d hd
        have hw' := contactAdd_wf hw hd
        have hq' : d.inQueue = (q.iqIdx, e) :: t := by rw [contactAdd_queue hd]; exact hq
        obtain ⟨-, g⟩ := finish_senders hw' hq' h
        rw [contactAdd_messages hd] at g
        refine ⟨fun x hx => ?_, fun r hr => .inl ?_⟩
        · rcases g x hx with g | ⟨-, g⟩
          · exact .inl g
          · exact .inr ⟨_, List.mem_cons_self, henv, sender, msg, hm, h0, g⟩
        · rw [finish_queue hw' hq' h] at hr
          exact List.mem_cons_of_mem _ hr
      · obtain ⟨-, g⟩ := finish_senders hw hq h
        refine ⟨fun x hx => ?_, fun r hr => .inl ?_⟩
        · rcases g x hx with g | ⟨-, g⟩
          · exact .inl g
          · exact .inr ⟨_, List.mem_cons_self, henv, sender, msg, hm, h0, g⟩
        · rw [finish_queue hw hq h] at hr
          exact List.mem_cons_of_mem _ hr

/-- The message that is decrypted for a row: that in the row, or that in its envelope. -/
def Encrypted (D : Nat → InReply) (r : Nat × InEntry) (enc : Bytes) : Prop :=
  if r.2.envelope then (D r.1).envelope = .opened enc else enc = r.2.msg

theorem run_sources {I : Ids} (hI : I.map [] ≠ some []) (D : Nat → InReply) (n : Nat) : ∀ (db : Db), WF I db → ∀ db' b, procRun I D n db = some (db', b) →
    ∀ x ∈ inbox db'.messages, x ∈ inbox db.messages ∨ ∃ r ∈ db.inQueue, ∃ enc, Encrypted D r enc ∧ Gives D r x := by
  induction n with
  | zero => intro db _ db' b h; cases h
  | succ n ih =>
    intro db hw db' b h x hx
    unfold procRun at h
    split at h
    · simp only [Option.some.injEq, Prod.mk.injEq] at h
      rw [← h.1] at hx; exact .inl hx
    · simp only [Option.some.injEq, Prod.mk.injEq] at h
      rw [← h.1] at hx; exact .inl hx
    · rename_i d hd
      obtain ⟨a1, a2⟩ := step_sources hI hw hd
      rcases ih d (procStep_next hI hw hd).1 db' b h x hx with g | ⟨r, hr, enc, he, g⟩
      · rcases a1 x g with g | ⟨r, hr, he, g⟩
        · exact .inl g
        · exact .inr ⟨r, hr, r.2.msg, by rw [Encrypted, if_neg (by simp [he])], g⟩
      · rcases a2 r hr with hr' | ⟨r0, hr0, o1, o2, o3, o4, o5, o6⟩
        · exact .inr ⟨r, hr', enc, he, g⟩
        · refine .inr ⟨r0, hr0, enc, ?_, ?_⟩
          · rw [Encrypted, if_neg (by simp [o3])] at he
            rw [Encrypted, if_pos o2, o6, he]
          · obtain ⟨s, m, g1, g2, g3⟩ := g
            exact ⟨s, m, by rw [← o1]; exact g1, g2, by rw [g3, o4, o5]⟩

/-- What the engine heard from some run of `mutecrypt decrypt` on a message: stopped anywhere, with any exit status and any state of the key
database. -/
def HeardFrom (P : Prims) (T : Texts) (ids : List UID) (num : UInt64) (enc : Bytes) (r : MsgReply) : Prop :=
  ∃ fresh st evs ok, Cut (decryptRun P T ids num fresh enc st).1 evs ∧ r = hearDecrypt (stdout evs) (stderr evs) ok

/-- C122: every message that processing the in-queue adds to the inbox comes from a row of the in-queue whose (enveloped) message is authentic; its
content is exactly what is stored, under the nym and the date of the row and with the sender that the header names. Nothing forged, cut or
unauthenticated gets into the inbox, however often `mutecrypt` is interrupted, and however the run ends. -/
theorem C122_inbox (P : Prims) (T : Texts) (ids : List UID) (num : UInt64) (I : Ids) (hI : I.map [] ≠ some []) (ops : List Msgdb.Op) (D : Nat → InReply)
    (hD : ∀ r ∈ (Db.new.run I ops).inQueue, ∀ enc, Encrypted D r enc → HeardFrom P T ids num enc (D r.1).message) (n : Nat) (db' : Db) (b : Bool)
    (h : procRun I D n (Db.new.run I ops) = some (db', b)) (x : Received) (hx : x ∈ inbox db'.messages) (hn : x ∉ inbox (Db.new.run I ops).messages) :
    ∃ r ∈ (Db.new.run I ops).inQueue, ∃ enc full fresh st, Encrypted D r enc ∧ Authentic P ids num fresh enc st full x.msg ∧
      x.sender = Scan.firstLine full ∧ x.nym = r.2.myID ∧ x.date = r.2.date := by
  rcases run_sources hI D n _ (wf_reach ops) db' b h x hx with g | ⟨r, hr, enc, he, s, m, g1, g2, rfl⟩
  · exact absurd g hn
  · obtain ⟨fresh, st, evs, ok, hc, hh⟩ := hD r hr enc he
    rw [g1] at hh
    obtain ⟨full, ha, hf⟩ := C122_authenticated P T ids num fresh enc st evs ok s m hc g2 hh.symm
    exact ⟨r, hr, enc, full, fresh, st, he, ha, hf, rfl, rfl⟩

/-! ### encryption -/

theorem rtrim_last (s : Bytes) (h : rtrim s ≠ []) : ∃ s' c, rtrim s = s' ++ [c] ∧ isBlank c = false := by
  unfold rtrim at h ⊢
  have hd := List.head?_dropWhile_not isBlank s.reverse
  rcases hq : s.reverse.dropWhile isBlank with _ | ⟨c, q⟩
  · rw [hq] at h; simp at h
  · rw [hq] at hd
    exact ⟨q.reverse, c, by simp, by simpa using hd⟩

theorem rtrim_nym (nym : Bytes) : trim (txtNym ++ 9 :: nym ++ [10]) = rtrim (txtNym ++ 9 :: nym ++ [10]) := by
  rw [show txtNym ++ 9 :: nym ++ [10] = 78 :: (txtNym.tail ++ 9 :: nym ++ [10]) by
    rw [show txtNym = 78 :: txtNym.tail by decide +kernel]; rfl]
  exact trim_cons _ _ (by decide)

/-- C122: if the engine takes the output of `mutecrypt encrypt` for an encrypted message, then the encryption succeeded, the message is everything
it wrote and the nym address is what it returned (without blanks at the end), wherever the process was stopped. -/
theorem C122_encrypted (P : Prims) (T : Texts) (a : EncArgs) (rnd : Rnd) (st : MemStore) (evs : List Ev) (ok : Bool) (enc nym : Bytes)
    (hc : Cut (encryptRun P T a rnd st).1 evs) (h : hearEncrypt (stdout evs) (stderr evs) ok = some (enc, nym)) :
    ∃ full st' blanks, (encrypt P a rnd).run (MemStore.handle P) st = (.ok full, st') ∧ enc = st'.out.drop st.out.length ∧ full = nym ++ blanks ∧
      (∀ c ∈ blanks, isBlank c = true) ∧ PlainNym nym := by
  obtain ⟨f, hf⟩ := txtFatal_cons
  obtain ⟨p, hp⟩ := txtPanic_cons
  have none' : ∀ c t, isBlank c = false → c ≠ 78 → hearEncrypt (stdout evs) (c :: t) ok ≠ some (enc, nym) := by
    intro c t hb hc h
    unfold hearEncrypt at h
    split at h
    · cases h
    split at h
    · rename_i x y hxy
      split at h
      · rename_i hx
        obtain ⟨r, hr⟩ := trim_head (t := t) hb
        rw [hr] at hxy
        obtain ⟨e, -, -⟩ := splitTab_pair hxy
        rw [hx, show txtNym = 78 :: txtNym.tail by decide +kernel] at e
        exact hc (List.cons.inj e).1
      · cases h
    · cases h
  have empty : hearEncrypt (stdout evs) [] ok ≠ some (enc, nym) := by
    unfold hearEncrypt
    split
    · nofun
    · simp [trim, splitTab]
  unfold encryptRun at hc
  rcases hr : (encrypt P a rnd).run (MemStore.handle P) st with ⟨r, st'⟩
  rw [hr] at hc
  dsimp only at hc
  rcases r with full | e | _
  · dsimp only at hc
    rcases cut_two hc with g | ⟨t, g1, g2, g3⟩
    · rw [g] at h; exact absurd h empty
    · cases g3
      simp only [stdout, stderr, List.append_nil] at g1 g2
      rw [g1, g2] at h
      unfold hearEncrypt at h
      split at h
      · cases h
      split at h
      · rename_i x y hxy
        split at h
        · rename_i hx
          simp only [Option.some.injEq, Prod.mk.injEq] at h
          obtain ⟨rfl, rfl⟩ := h
          rw [rtrim_nym] at hxy
          obtain ⟨e, -, h9⟩ := splitTab_pair hxy
          obtain ⟨post, q1, q2⟩ := rtrim_split (txtNym ++ 9 :: full ++ [10])
          rw [e, hx] at q1
          have q1 : txtNym ++ [9] ++ (full ++ [10]) = txtNym ++ [9] ++ (y ++ post) := by simpa using q1
          have q1 := List.append_cancel_left q1
          obtain ⟨z, c, z1, z2⟩ := rtrim_last (txtNym ++ 9 :: full ++ [10]) (by rw [e]; simp)
          rw [e, hx] at z1
          have hlast : y.getLast? = some c ∨ (y = [] ∧ c = 9) := by
            have := congrArg List.getLast? z1
            rw [List.getLast?_concat, List.getLast?_append, List.getLast?_cons] at this
            rcases List.eq_nil_or_concat y with rfl | ⟨y', d, rfl⟩
            · exact .inr ⟨rfl, by simpa using this.symm⟩
            · left
              simpa using this
          have hne : ∃ y', y = y' ++ [c] := by
            rcases hlast with g | ⟨-, rfl⟩
            · exact List.getLast?_eq_some_iff.mp g
            · exact absurd z2 (by decide)
          have hpn : post ≠ [] := by
            rintro rfl
            obtain ⟨y', rfl⟩ := hne
            rw [List.append_nil] at q1
            have := (List.append_inj' q1 rfl).2
            rw [← (List.cons.inj this).1] at z2
            exact absurd z2 (by decide)
          obtain ⟨y', hy'⟩ := hne
          refine ⟨full, st', post.dropLast, rfl, rfl, ?_, fun c hc => q2 c (List.dropLast_subset _ hc), h9, y', c, hy', z2⟩
          have := congrArg List.dropLast q1
          rw [List.dropLast_concat, List.dropLast_append_of_ne_nil hpn] at this
          exact this
        · cases h
      · cases h
  · rcases cut_two hc with g | ⟨t, g1, g2, g3⟩
    · rw [g] at h; exact absurd h empty
    · rw [g2, hf] at h
      exact absurd h (none' 109 _ (by decide) (by decide))
  · rcases cut_two hc with g | ⟨t, g1, g2, g3⟩
    · rw [g] at h; exact absurd h empty
    · rw [g2, hp] at h
      exact absurd h (none' 112 _ (by decide) (by decide))

theorem hearEncrypt_plain (out : Bytes) {nym : Bytes} (h : PlainNym nym) : hearEncrypt out (txtNym ++ 9 :: nym ++ [10]) true = some (out, nym) := by
  obtain ⟨h9, s', c, rfl, hc⟩ := h
  unfold hearEncrypt
  rw [if_neg (by simp), rtrim_nym, rtrim_keep _ _ ⟨txtNym ++ 9 :: s', c, by simp, hc⟩ (by simp; decide), splitTab_two (by decide +kernel) h9]
  simp

/-- `Decrypt` only accepts the one version (msg/header.go), so that the check of the version before it changes nothing for accepted messages. -/
theorem version_ok {P : Prims} {ids : List UID} {num : UInt64} {fresh b pre rest : Bytes} {v : UInt16} {st st' : MemStore} {x : Str × Str}
    (h2 : readFirst b = .ok (v, pre, rest)) (h3 : (decrypt P ⟨ids, pre, rest, num, fresh⟩).run (MemStore.handle P) st = (.ok x, st')) : v = 1 := by
  obtain ⟨hp, u, hd, body, pk, mk, auth, mac, tl, content, sg, st1, a1, -⟩ := C10_success_is_authenticated P _ _ _ x.1 x.2 h3
  have hrun := (noCall_decHead P ⟨ids, pre, rest, num, fresh⟩).run (MemStore.handle P) MemStore.new
  rw [a1] at hrun
  unfold decHead at hrun
  simp only [bind_eq, run_bind_ok, Prod.exists, run_wire_ok] at hrun
  obtain ⟨ph, t, s1, ⟨r1, rfl⟩, -⟩ := hrun
  obtain ⟨w1, -, w3⟩ := Wire.C04_preheader_read_sound _ _ _ r1
  obtain ⟨tail, w4, -, -⟩ := Wire.C04_first_read_sound _ _ _ _ h2
  have e1 := Wire.read16_be16 v tail
  rw [← w4] at e1
  have e2 := Wire.read16_be16 ph.version (be16 ph.lenSuite ++ (ph.suite ++ (be16 ph.lenPub ++ ph.pub)) ++ t)
  rw [show be16 ph.version ++ (be16 ph.lenSuite ++ (ph.suite ++ (be16 ph.lenPub ++ ph.pub)) ++ t) = pre by rw [w3]; simp [Wire.Pre.write], e1] at e2
  simp only [Res.ok.injEq, Prod.mk.injEq] at e2
  rw [e2.1, w1]

/-- C122: from the sender's engine to the recipient's. If a message can be encrypted and decrypted (as C61 shows for whole conversations), the
sender's name is plain and the nym address is, then the sender's engine gets the encrypted message and the nym address, and from that message the
recipient's engine gets exactly the content and the name of the sender. -/
theorem C122_delivered (P : Prims) (T T' : Texts) (L : Link) (r : Round) (A B A' B' : MemStore) (content sender sig : Bytes)
    (h : exchange P L r A B = .ok ((content, sender, sig), A', B')) (hs : Plain sender)
    (hn : ∀ nym A', (encrypt P (L.encArgs r) r.rnd).run (MemStore.handle P) A = (.ok nym, A') → PlainNym nym) :
    ∃ enc nym, (encryptRun P T (L.encArgs r) r.rnd A).2 = true ∧
      hearEncrypt (stdout (encryptRun P T (L.encArgs r) r.rnd A).1) (stderr (encryptRun P T (L.encArgs r) r.rnd A).1) true = some (enc, nym) ∧
      (decryptRun P T' [L.bob] L.nB r.fresh enc B).2 = true ∧
      hearDecrypt (stdout (decryptRun P T' [L.bob] L.nB r.fresh enc B).1) (stderr (decryptRun P T' [L.bob] L.nB r.fresh enc B).1) true =
        .decrypted sender content := by
  unfold exchange at h
  split at h
  · rename_i nym A1 hA
    split at h
    · rename_i s g B1 hB
      simp only [Except.ok.injEq, Prod.mk.injEq] at h
      obtain ⟨⟨rfl, rfl, rfl⟩, rfl, rfl⟩ := h
      have hE : encryptRun P T (L.encArgs r) r.rnd A = ([.out (A1.out.drop A.out.length), .err (txtNym ++ 9 :: nym ++ [10])], true) := by
        unfold encryptRun
        rw [hA]
      refine ⟨A1.out.drop A.out.length, nym, by rw [hE], ?_, ?_⟩
      · rw [hE]
        simp only [stdout, stderr, List.append_nil]
        exact hearEncrypt_plain _ (hn nym A1 hA)
      · unfold openMsg at hB
        split at hB
        · cases hB
        rename_i b hb
        split at hB
        · rename_i v pre rest hf
          split at hB
          · rename_i x B2 hdec
            simp only [Option.some.injEq, Prod.mk.injEq] at hB
            obtain ⟨rfl, rfl⟩ := hB
            obtain rfl := version_ok hf hdec
            obtain ⟨c, hc1, hc2⟩ := C122_exact P T' [L.bob] L.nB r.fresh _ b pre rest B B2 s g hb hf hdec hs
            have : B2.out.drop B.out.length = c := by rw [hc1, List.drop_left]
            rw [this]
            have hok : (decryptRun P T' [L.bob] L.nB r.fresh (A1.out.drop A.out.length) B).2 = true := by
              unfold decryptRun
              rw [hb]
              simp only [hf]
              rw [if_neg (by decide), hdec]
            rw [hok] at hc2
            exact ⟨hok, hc2⟩
          · cases hB
        · cases hB
    · cases h
  · cases h

/-! ### what can go wrong -/

/-- C122 (finding): the sender of a message is free to name any identity in the header (C59). If it contains a tab, the recipient's engine cannot
read the report of `mutecrypt`, although the message is authentic: processing the in-queue ends with an error at this row and does nothing for the
rows behind it; and as `mutecrypt` has already deleted the message key, the message can never be decrypted again, whatever happens in between. -/
theorem C122_tab_violated (P : Prims) (T : Texts) (ids : List UID) (num : UInt64) (fresh enc b pre rest : Bytes) (init st' : MemStore) (sender sig : Bytes)
    (hinit : ∀ k, init.sessions k = none) {α : Type} (before : Prog α)
    (h1 : P.unb64 enc = some b) (h2 : readFirst b = .ok (1, pre, rest))
    (h3 : (decrypt P ⟨ids, pre, rest, num, fresh⟩).run (MemStore.handle P) (before.run (MemStore.handle P) init).2 = (.ok (sender, sig), st'))
    (h9 : 9 ∈ Scan.firstLine sender) :
    let r := decryptRun P T ids num fresh enc (before.run (MemStore.handle P) init).2
    hearDecrypt (stdout r.1) (stderr r.1) r.2 = .failed ∧
    (∀ (I : Ids), I.map [] ≠ some [] → ∀ (ops : List Msgdb.Op) (i : Nat) (e : InEntry) (t : Table InEntry), (Db.new.run I ops).inQueue = (i, e) :: t →
      e.envelope = false → ∀ D : Nat → InReply, (D i).message = hearDecrypt (stdout r.1) (stderr r.1) r.2 → ∀ n,
      procRun I D (n + 1) (Db.new.run I ops) = some (Db.new.run I ops, false)) ∧
    (∀ {β : Type} (between : Prog β) (num' : UInt64) (fresh' : Bytes) (evs : List Ev) (ok : Bool) (s m : Bytes),
      Cut (decryptRun P T ids num' fresh' enc (between.run (MemStore.handle P) st').2).1 evs → s ≠ [] →
      hearDecrypt (stdout evs) (stderr evs) ok ≠ .decrypted s m) := by
  have hf : hearDecrypt (stdout (decryptRun P T ids num fresh enc (before.run (MemStore.handle P) init).2).1)
      (stderr (decryptRun P T ids num fresh enc (before.run (MemStore.handle P) init).2).1)
      (decryptRun P T ids num fresh enc (before.run (MemStore.handle P) init).2).2 = .failed := by
    unfold decryptRun
    rw [h1]
    simp only [h2]
    rw [if_neg (by decide), h3]
    simp only [stderr]
    generalize stdout _ = o
    generalize stderr _ = t
    rw [show txtSender ++ 9 :: sender ++ [10] ++ t = txtSender ++ 9 :: sender ++ 10 :: t by simp]
    exact hear_tab o t h9
  refine ⟨hf, ?_, ?_⟩
  · intro I hI ops i e t hq he D hD n
    exact C48_bad_head_blocks hI ops i e t hq D (.inr ⟨he, by rw [hD, hf]⟩) n
  · intro β between num' fresh' evs ok s m hc hs h
    obtain ⟨b', pre', rest', full, sig', st2, g1, g2, g3, -⟩ := heard_ok hc hs h
    rw [h1] at g1
    obtain rfl := Option.some.inj g1
    rw [h2] at g2
    simp only [Res.ok.injEq, Prod.mk.injEq, true_and] at g2
    obtain ⟨rfl, rfl⟩ := g2
    have := (C12_replay_rejected P init hinit before between ⟨ids, pre, rest, num, fresh⟩ ⟨ids, pre, rest, num', fresh'⟩ st' sender sig h3 ⟨rfl, rfl, rfl⟩).1
    exact this (full, sig') (by rw [g3])

theorem encrypt_session {P : Prims} {a : EncArgs} {rnd : Rnd} {A A' : MemStore} {nym : Str} {fp tp : Bytes}
    (hf : a.from.pubKey.pub32 P = some fp) (ht : a.to.pubKey.pub32 P = some tp)
    (h : (encrypt P a rnd).run (MemStore.handle P) A = (.ok nym, A')) :
    ∃ n ss A1, (encSession P a rnd n (calcStateKey P fp tp)).run (MemStore.handle P) A = (.ok (ss, nym), A1) := by
  unfold encrypt at h
  simp only [bind_eq] at h
  rw [run_bind_ok] at h; obtain ⟨fp', s0, h0, h⟩ := h
  rw [run_orPanic_ok] at h0; obtain ⟨h0, rfl⟩ := h0
  rw [run_bind_ok] at h; obtain ⟨tp', s1, h1, h⟩ := h
  rw [run_orPanic_ok] at h1; obtain ⟨h1, rfl⟩ := h1
  rw [run_bind_ok] at h; obtain ⟨⟨ss', ny⟩, A1, h2, h⟩ := h
  rw [hf] at h0; rw [ht] at h1
  obtain rfl := Option.some.inj h0
  obtain rfl := Option.some.inj h1
  have : ny = nym := by
    simp only at h
    repeat (rw [run_bind_ok] at h; obtain ⟨_, _, _, h⟩ := h; try simp only at h)
    simp only [run_ret, Prod.mk.injEq, Res.ok.injEq] at h
    exact h.1
  subst this
  exact ⟨_, ss', A1, h2⟩

/-- If there is a session, the nym address is the one in its state. -/
theorem encrypt_nym {P : Prims} {a : EncArgs} {rnd : Rnd} {A A' : MemStore} {nym : Str} {fp tp : Bytes} {ss : Msg.State} (hst : a.status = statusOK)
    (hf : a.from.pubKey.pub32 P = some fp) (ht : a.to.pubKey.pub32 P = some tp) (hs : A.states (calcStateKey P fp tp) = some ss)
    (h : (encrypt P a rnd).run (MemStore.handle P) A = (.ok nym, A')) : nym = ss.nymAddress := by
  obtain ⟨n, s', A1, hx⟩ := encrypt_session hf ht h
  unfold encSession at hx
  simp only [bind_eq] at hx
  rw [if_pos (by rw [hst]; decide), run_bind_of_ok (h := MemStore.handle P) (a := some ss) (s1 := A) (by rw [run_ask_ok]; simp only [MemStore.handle, hs])] at hx
  simp only at hx
  rw [if_pos (by rw [hst]; decide)] at hx
  split at hx
  · rw [run_bind_ok] at hx
    obtain ⟨⟨s', k'⟩, A2, -, hx⟩ := hx
    simp only [run_ret, Prod.mk.injEq, Res.ok.injEq] at hx
    exact hx.1.2.symm
  · simp only [run_ret, Prod.mk.injEq, Res.ok.injEq] at hx
    exact hx.1.2.symm

/-- If there is none, it is the one in the KeyInit message. -/
theorem encrypt_first {P : Prims} {a : EncArgs} {rnd : Rnd} {A A' : MemStore} {nym : Str} {fp tp : Bytes} (hst : a.status = statusOK)
    (hf : a.from.pubKey.pub32 P = some fp) (ht : a.to.pubKey.pub32 P = some tp) (hs : A.states (calcStateKey P fp tp) = none)
    (h : (encrypt P a rnd).run (MemStore.handle P) A = (.ok nym, A')) : nym = A.nyms a.to.identity := by
  obtain ⟨n, s', A1, hx⟩ := encrypt_session hf ht h
  unfold encSession at hx
  simp only [bind_eq] at hx
  rw [if_pos (by rw [hst]; decide), run_bind_of_ok (h := MemStore.handle P) (a := none) (s1 := A) (by rw [run_ask_ok]; simp only [MemStore.handle, hs])] at hx
  simp only at hx
  rw [run_bind_ok] at hx
  obtain ⟨⟨ke, nm⟩, s2, h1, hx⟩ := hx
  rw [run_ask_ok] at h1
  simp only [MemStore.handle, MemStore.getPublicKeyEntry, Prod.mk.injEq] at h1
  obtain ⟨h1, rfl⟩ := h1
  split at h1
  · cases h1
  simp only [Except.ok.injEq, Prod.mk.injEq] at h1
  simp only at hx
  repeat (rw [run_bind_ok] at hx; obtain ⟨_, _, _, hx⟩ := hx; try simp only at hx)
  simp only [run_ret, Prod.mk.injEq, Res.ok.injEq] at hx
  rw [← hx.1.2, h1.2]

/-- C122 (finding): the nym address of a session comes from the header of the peer's message. If the peer left it empty, wrote only blanks or a tab
into it, then no message to the peer can be encrypted: the engine cannot read the report of `mutecrypt`, and the send command ends with an error. -/
theorem C122_nym_violated (P : Prims) (T : Texts) (a : EncArgs) (rnd : Rnd) (st : MemStore) (fp tp : Bytes) (ss : Msg.State) (hst : a.status = statusOK)
    (hf : a.from.pubKey.pub32 P = some fp) (ht : a.to.pubKey.pub32 P = some tp) (hs : st.states (calcStateKey P fp tp) = some ss)
    (hn : (∀ c ∈ ss.nymAddress, isBlank c = true) ∨ ∃ x y, ss.nymAddress = x ++ 9 :: y ∧ ∃ c ∈ y, isBlank c = false) (evs : List Ev) (ok : Bool)
    (hc : Cut (encryptRun P T a rnd st).1 evs) :
    hearEncrypt (stdout evs) (stderr evs) ok = none ∧
    ∀ (I : Ids) (r : Reply) (s : St) (recv : Bytes) (x : Undelivered), s.pc = .encrypt recv x → r.enc = hearEncrypt (stdout evs) (stderr evs) ok →
      (s.step I r).pc = .failed ∧ (s.step I r).db = s.db := by
  have hnone : hearEncrypt (stdout evs) (stderr evs) ok = none := by
    rcases hh : hearEncrypt (stdout evs) (stderr evs) ok with _ | ⟨enc, nym⟩
    · rfl
    · obtain ⟨full, st', bl, g1, -, g3, g4, g5, n', d, g6, g7⟩ := C122_encrypted P T a rnd st evs ok enc nym hc hh
      obtain rfl := encrypt_nym hst hf ht hs g1
      exfalso
      rcases hn with hn | ⟨x, y, hxy, c, hcy, hcb⟩
      · have := hn d (by rw [g3, g6]; simp)
        rw [this] at g7
        cases g7
      · rw [hxy] at g3
        have hbl : c ∈ bl := by
          rcases List.append_eq_append_iff.mp g3 with ⟨a', e1, e2⟩ | ⟨a', e1, e2⟩
          · rcases a' with _ | ⟨z, a'⟩
            · rw [List.nil_append] at e2
              rw [← e2]; exact List.mem_cons_of_mem _ hcy
            · obtain ⟨rfl, -⟩ := List.cons.inj e2
              exact absurd (by rw [e1]; simp) g5
          · rw [e2]; simp [hcy]
        rw [g4 c hbl] at hcb
        cases hcb
  refine ⟨hnone, ?_⟩
  intro I r s recv x hpc hr
  rw [hnone] at hr
  unfold St.step
  rw [hpc]
  simp only [hr]
  exact ⟨rfl, rfl⟩

/-- C122: where the nym address comes from: after the session part of the first message of a peer, the state of the session contains the nym
address of the header of the message, whatever it is. -/
theorem C122_nym_source (P : Prims) (a : DecArgs) (n : UInt64) (headerPub : Bytes) (u : UID) (h : Header) (rp sp : Bytes) (st st' : MemStore) (s : Msg.State)
    (hr : u.pubKey.pub32 P = some rp) (hs : h.senderIdentityPub.pub32 P = some sp) (h0 : st.states (calcStateKey P rp sp) = none)
    (h1 : st.sessions (decSessionKey P u h) = none)
    (hok : (decSession P a n headerPub u h).run (MemStore.handle P) st = (.ok (some s), st')) :
    s.nymAddress = h.nymAddress ∧ st'.states (calcStateKey P rp sp) = some s := by
  unfold decSession at hok
  simp only [bind_eq, hr, hs, orPanic, ret_bind] at hok
  rw [run_bind_of_ok (h := MemStore.handle P) (a := none) (s1 := st) (by rw [run_ask_ok]; simp only [MemStore.handle, h0])] at hok
  rw [run_bind_of_ok (h := MemStore.handle P) (a := false) (s1 := st) (by rw [run_try']; simp only [MemStore.handle, MemStore.hasSession, h1, Option.isSome_none])] at hok
  rw [if_neg (by simp)] at hok
  unfold decUnknown at hok
  simp only [bind_eq] at hok
  rw [run_bind_ok] at hok
  obtain ⟨x, s1, -, hok⟩ := hok
  split at hok
  · simp only [run_ret, Prod.mk.injEq, Res.ok.injEq] at hok
    cases hok.1
  · cases hok
  · rw [run_bind_ok] at hok
    obtain ⟨_, s2, -, hok⟩ := hok
    simp only [if_true] at hok
    rw [run_bind_ok] at hok
    obtain ⟨_, s3, -, hok⟩ := hok
    have last : ∀ (s4 : MemStore) (x : Msg.State), x.nymAddress = h.nymAddress →
        ((ask (.setState (calcStateKey P rp sp) x)).bind fun _ => ret (some x)).run (MemStore.handle P) s4 = (.ok (some s), st') →
        s.nymAddress = h.nymAddress ∧ st'.states (calcStateKey P rp sp) = some s := by
      intro s4 x hx hok
      rw [run_bind_ok] at hok
      obtain ⟨_, s5, hset, hok⟩ := hok
      simp only [run_ret, Prod.mk.injEq, Res.ok.injEq, Option.some.injEq] at hok
      obtain ⟨rfl, rfl⟩ := hok
      rw [run_ask_ok] at hset
      simp only [MemStore.handle, Prod.mk.injEq] at hset
      obtain ⟨-, rfl⟩ := hset
      exact ⟨hx, upd_same _ _ _⟩
    split at hok
    · rw [run_bind_ok] at hok
      obtain ⟨_, s4, -, hok⟩ := hok
      rw [run_bind_ok] at hok
      obtain ⟨_, s5, -, hok⟩ := hok
      exact last s5 _ (by rfl) hok
    · exact last s3 _ (by rfl) hok

/-! ### examples -/

def toyTexts : Texts := ⟨[98], fun _ => [102], [118], fun e => if e = .noPreHeaderKey then txtNoKey else [101], [116]⟩

/-- The users of the example of C61; the sender calls itself as given. -/
def linkN (id : Str) : Link := { Toy.linkE with alice := { Toy.aliceE with identity := id } }

theorem linkN_ok (id : Str) : (linkN id).OK Toy.PE { Toy.uid0 with sigKey := Toy.sigKeyE } := ⟨rfl, rfl, rfl, Toy.linkE_ok.nA, Toy.linkE_ok.nB⟩

open Verif.Msg.Toy in
theorem roundN_fits (id : Str) (hid : id.length = 3) (i : UInt8) (c : Bytes) (hc : c.length ≤ 41691) (b : Bool) : (roundE i c b).Fits PE (linkN id) := by
  refine ⟨List.length_replicate, by show id.length ≤ _; rw [hid]; decide, by show 1 ≤ 1568; omega, (roundE_fits i c hc b).json, hc, ?_⟩
  intro s k ss hss
  have key : (ehdr (mkHeader ((linkN id).encArgs (roundE i c b)) (roundE i c b).rnd ss)).length ≤ 7152 := by
    have hn : (eoke (ss.nextSenderSessionPub.map KeyEntry.public)).length ≤ 143 := by
      rcases hss.next with h | ⟨x, h⟩
      · rw [h]; decide
      · rw [h]; simp only [Option.map_some, eoke, List.length_cons, eke_init_length]; omega
    have hpad : ∀ n, ((roundE i c b).rnd.hexPad n).length = n := fun n => List.length_replicate
    have h1 : ((linkN id).encArgs (roundE i c b)).to.pubKey.hash.length = 88 := keyHash_length [2]
    have h2 : ((linkN id).encArgs (roundE i c b)).from.pubKey.hash.length = 88 := keyHash_length [1]
    have h3 : ((linkN id).encArgs (roundE i c b)).from.identity.length = 3 := hid
    have h4 : ((linkN id).encArgs (roundE i c b)).from.json.length = 2 := rfl
    have h5 : ((linkN id).encArgs (roundE i c b)).nymAddress.length = 1 := rfl
    have h6 : ((linkN id).encArgs (roundE i c b)).lastHash.length = 204 := List.length_replicate
    have h7 : (eke ((linkN id).encArgs (roundE i c b)).from.pubKey.public).length = 142 := eke_init_length [1]
    have h8 : (eoke (ss.nextRecipientSessionPubSeen.map KeyEntry.public)).length = 1 := by rw [hss.seen]; rfl
    simp only [mkHeader, ehdr, List.length_append, lp_length, hss.own, hss.hash, keyHash_length,
      eke_init_length, eu64_length, hpad, h1, h2, h3, h4, h5, h6, h7, h8, List.length_cons, List.length_nil]
    generalize (eoke (ss.nextSenderSessionPub.map KeyEntry.public)).length = x1 at hn ⊢
    have hq : ∀ q, padLen q ≤ 5685 := padLen_le
    generalize hx : padLen _ = x2
    have := hx ▸ hq _
    omega
  show (emarshal _).length = 7152
  unfold emarshal
  rw [if_pos key, List.length_append, List.length_replicate]
  omega

theorem startN (id : Str) : (linkN id).Start Toy.PE Toy.storeA Toy.storeB :=
  ⟨rfl, rfl, fun _ => rfl, fun _ => rfl, upd_same (fun _ => none) Toy.bobE.identity _, Toy.startE.priv⟩

/-- A message of a sender of any name (of three characters) is encrypted and decrypted. -/
theorem exchangeN (id : Str) (hid : id.length = 3) : ∃ sig A' B', exchange Toy.PE (linkN id) (Toy.roundE 1 [104, 105] true) Toy.storeA Toy.storeB = .ok (([104, 105], id, sig), A', B') := by
  have h := C61_conversation_succeeds Toy.PE_good (linkN id) _ (linkN_ok id) Toy.emarshal_parse [Toy.roundE 1 [104, 105] true]
    (by intro r hr; rw [List.mem_singleton.mp hr]; exact Toy.roundE_ok _ _ _)
    (by intro r hr; rw [List.mem_singleton.mp hr]; exact roundN_fits id hid _ _ (by simp) _)
    (by intro r hr
        obtain rfl : Toy.roundE 1 [104, 105] true = r := Option.some.inj hr
        exact (by decide +kernel : AllDifferent [Toy.PE.dhPub (Toy.roundE 1 [104, 105] true).rnd.headerPriv, Toy.PE.dhPub [1],
          Toy.PE.dhPub (Toy.roundE 1 [104, 105] true).rnd.sessPriv, Toy.PE.dhPub [2], Toy.PE.dhPub [3]]))
    (Nat.le_trans (by show 1 ≤ (effKeys 0).toNat; decide) (le_stuckAt _)) Toy.storeA Toy.storeB (startN id)
  unfold conversation at h
  split at h
  · cases h
  · rename_i x A' B' hx
    simp only [conversation, List.map_cons, List.map_nil, Except.ok.injEq, List.cons.injEq, and_true] at h
    subst h
    exact ⟨_, A', B', hx⟩

/-- A decryption that succeeds, from the exchange. -/
theorem opened (id : Str) (hid : id.length = 3) : ∃ enc b pre rest sig st', Toy.PE.unb64 enc = some b ∧ readFirst b = .ok (1, pre, rest) ∧
    (decrypt Toy.PE ⟨[Toy.bobE], pre, rest, 0, [40, 1]⟩).run (MemStore.handle Toy.PE) Toy.storeB = (.ok (id, sig), st') ∧ st'.out = Toy.storeB.out ++ [104, 105] := by
  obtain ⟨sig, A', B', h⟩ := exchangeN id hid
  unfold exchange at h
  split at h
  · rename_i nym A1 hA
    split at h
    · rename_i s g B1 hB
      simp only [Except.ok.injEq, Prod.mk.injEq] at h
      obtain ⟨⟨h0, rfl, rfl⟩, rfl, rfl⟩ := h
      unfold openMsg at hB
      split at hB
      · cases hB
      rename_i b hb
      split at hB
      · rename_i v pre rest hf
        split at hB
        · rename_i x B2 hdec
          simp only [Option.some.injEq, Prod.mk.injEq] at hB
          obtain ⟨rfl, rfl⟩ := hB
          obtain rfl := version_ok hf hdec
          obtain ⟨c, hc⟩ := decrypt_out _ _ _ _ _ hdec
          refine ⟨_, b, pre, rest, g, B2, hb, hf, hdec, ?_⟩
          rw [hc, List.drop_left] at h0
          rw [hc, h0]
        · cases hB
      · cases hB
    · cases h
  · cases h

/-- C122_delivered: the hypotheses are met for the sender "a@m". -/
example : ∃ enc nym, hearEncrypt (stdout (encryptRun Toy.PE toyTexts ((linkN [97, 64, 109]).encArgs (Toy.roundE 1 [104, 105] true)) (Toy.roundE 1 [104, 105] true).rnd Toy.storeA).1)
      (stderr (encryptRun Toy.PE toyTexts ((linkN [97, 64, 109]).encArgs (Toy.roundE 1 [104, 105] true)) (Toy.roundE 1 [104, 105] true).rnd Toy.storeA).1) true = some (enc, nym) ∧
    hearDecrypt (stdout (decryptRun Toy.PE toyTexts [Toy.bobE] 0 [40, 1] enc Toy.storeB).1) (stderr (decryptRun Toy.PE toyTexts [Toy.bobE] 0 [40, 1] enc Toy.storeB).1) true =
      .decrypted [97, 64, 109] [104, 105] := by
  obtain ⟨sig, A', B', h⟩ := exchangeN [97, 64, 109] rfl
  obtain ⟨enc, nym, -, h2, -, h4⟩ := C122_delivered Toy.PE toyTexts toyTexts _ _ _ _ _ _ _ _ _ h ⟨by decide, by decide, by decide, by decide⟩ (by
    intro nym A1 hA
    rw [encrypt_first (fp := Toy.PE.dhPub [1]) (tp := Toy.PE.dhPub [2]) rfl (initDHKey_pub32 _ Toy.PE_good _) (initDHKey_public_pub32 _ Toy.PE_good _) rfl hA]
    exact ⟨by decide, MemStore.sUndefined.dropLast, 100, by decide, by decide⟩)
  exact ⟨enc, nym, h2, h4⟩

/-- C122_tab_violated: the hypotheses are met for the sender "a\tm". -/
example : ∃ enc b pre rest sig st', Toy.PE.unb64 enc = some b ∧ readFirst b = .ok (1, pre, rest) ∧
    (decrypt Toy.PE ⟨[Toy.bobE], pre, rest, 0, [40, 1]⟩).run (MemStore.handle Toy.PE) ((ret () : Prog Unit).run (MemStore.handle Toy.PE) Toy.storeB).2 = (.ok ([97, 9, 109], sig), st') ∧
    9 ∈ Scan.firstLine [97, 9, 109] ∧ ∀ k, Toy.storeB.sessions k = none :=
  let ⟨enc, b, pre, rest, sig, st', h1, h2, h3, _⟩ := opened [97, 9, 109] rfl
  ⟨enc, b, pre, rest, sig, st', h1, h2, h3, by decide, fun _ => rfl⟩

/-- C122_authenticated: a run that was stopped after the report of the sender, before that of the signature. -/
example : ∃ enc evs, Cut (decryptRun Toy.PE toyTexts [Toy.bobE] 0 [40, 1] enc Toy.storeB).1 evs ∧
    hearDecrypt (stdout evs) (stderr evs) true = .decrypted [97, 64, 109] [104, 105] := by
  obtain ⟨enc, b, pre, rest, sig, st', h1, h2, h3, h4⟩ := opened [97, 64, 109] rfl
  refine ⟨enc, [.out [104, 105], .err (txtSender ++ 9 :: [97, 64, 109] ++ [10])], ?_, by decide +kernel⟩
  unfold decryptRun
  rw [h1]
  simp only [h2]
  rw [if_neg (by decide), h3]
  simp only [h4, List.drop_left]
  exact .next _ (.next _ (.stop _))

/-- C122_no_key: a message that is for somebody else. -/
example : ((decrypt Toy.PT { Toy.argsT with identities := [] }).run (MemStore.handle Toy.PT) Toy.storeT).1 = .err .noPreHeaderKey := by decide +kernel

/-- C122_nym_violated: a session whose peer gave no nym address. -/
example : Toy.storeT.states (calcStateKey Toy.PT (Toy.fit 32 [1]) (Toy.fit 32 [3])) = some Toy.stateT ∧ ∀ c ∈ Toy.stateT.nymAddress, isBlank c = true :=
  ⟨by decide +kernel, nofun⟩

/-- C122_inbox: a queue with one message, which is stored. -/
example : ∃ enc, (∀ r ∈ (Db.new.run noEmptyI [.addNym [1] [1] [], .addContact [1] [97, 64, 109] [97, 64, 109] [] 0, .addInQueue [1] [] 50 [20], .setInQueue 1 enc]).inQueue, ∀ e,
      Encrypted (fun _ => ⟨.failed, .decrypted [97, 64, 109] [104, 105], true⟩) r e → HeardFrom Toy.PE toyTexts [Toy.bobE] 0 e (.decrypted [97, 64, 109] [104, 105])) ∧
    ∃ db', procRun noEmptyI (fun _ => ⟨.failed, .decrypted [97, 64, 109] [104, 105], true⟩) 2
      (Db.new.run noEmptyI [.addNym [1] [1] [], .addContact [1] [97, 64, 109] [97, 64, 109] [] 0, .addInQueue [1] [] 50 [20], .setInQueue 1 enc]) = some (db', true) ∧
      inbox db'.messages = [⟨1, [97, 64, 109], 50, [104, 105]⟩] := by
  obtain ⟨enc, b, pre, rest, sig, st', h1, h2, h3, h4⟩ := opened [97, 64, 109] rfl
  refine ⟨enc, ?_, _, rfl, rfl⟩
  intro r hr e he
  have : (Db.new.run noEmptyI [.addNym [1] [1] [], .addContact [1] [97, 64, 109] [97, 64, 109] [] 0, .addInQueue [1] [] 50 [20], .setInQueue 1 enc]).inQueue = [(1, ⟨1, 0, 50, enc, false⟩)] := rfl
  rw [this] at hr
  rw [List.mem_singleton.mp hr] at he
  obtain rfl : e = enc := he
  obtain ⟨c, e1, e2⟩ := C122_exact Toy.PE toyTexts [Toy.bobE] 0 [40, 1] e b pre rest Toy.storeB st' _ sig h1 h2 h3 ⟨by decide, by decide, by decide, by decide⟩
  rw [h4] at e1
  obtain rfl := List.append_cancel_left e1
  refine ⟨[40, 1], Toy.storeB, _, _, ?_, e2.symm⟩
  have : ∀ l, Cut l l := by
    intro l
    induction l with
    | nil => exact .stop _
    | cons a l ih => exact .next _ ih
  exact this _

end Verif.Ctrl.CryptRun

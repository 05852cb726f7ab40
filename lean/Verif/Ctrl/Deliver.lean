/-
What the sender records about a message and what happened to it (C120): `muteproto create` makes
the envelope (protoengine/create.go), `muteproto deliver` hands it to the mix and reports on its
standard error output (protoengine/deliver.go, util/util.go), and the engine reads this report
(ctrlengine/msg.go:233-272, 326-357).

The mix, the network and the mail server are arguments. Texts of errors of the decoder are one
fixed text. The blanks that are trimmed are the ASCII ones. Starting `muteproto` and writing to its
input succeed. Lines of the log on the console, which the engine does not ask for, are left out.
-/
import Verif.Mix.Toy
import Verif.Mix.Client
import Verif.Util.Props
import Verif.Ctrl.SendProps
import Verif.Ctrl.Transfer

namespace Verif.Ctrl.Deliver
set_option autoImplicit false
open Verif.Asn1 Verif.Mix Verif.Util Verif.Ctrl.Transfer

/-! ### the two programs -/

/-- `muteproto create` (protoengine/create.go:17-57) with `Create` (mix/client/send.go:38-57):
`head` is the header of a mail to an address (mix/client/io.go:33-37), `ca` the certificate of the
configuration. `none` is an error. -/
def create (P : Prims) (utf8 : Bytes → Bool) (clock : Int) (head : Bytes → Bytes) (sender ca revoke eph nonce : Bytes)
    (min max : Int) (token nymaddress msg : Bytes) : Option Bytes := do
  let m ← Base64.decode msg
  let t ← Base64.decode token
  let na ← Base64.decode nymaddress
  match newRelay P clock ⟨0, min, max, some t, [], none⟩ na m revoke eph nonce with
  | .ok (e, to) =>
    let mo : Out := ⟨some (head to ++ writeMailBody e), to, sender, some revoke, 587, [], some ca, none, true⟩
    some (Base64.encode ((mo.marshal utf8).getD []))
  | _ => none

/-- How a process ended: the text of the error of `cmd.Wait`, if any, and what it wrote to its
standard error output. -/
structure Exit where
  fault : Option Bytes
  stderr : Bytes
  deriving DecidableEq

def txtResend : Bytes := "RESEND:\t".toUTF8.data.toList
def txtStatus1 : Bytes := "exit status 1".toUTF8.data.toList
def txtFatal : Bytes := "muteproto: error: ".toUTF8.data.toList
def txtCorrupt : Bytes := "illegal base64 data".toUTF8.data.toList
def txtUnparsable : Bytes := "ctrlengine: muteproto status output not parsable: ".toUTF8.data.toList
def txtColon : Bytes := ": ".toUTF8.data.toList

/-- The text of the serviceguard's `client.ErrFinal` (serviceguard/client/errors.go:57). -/
def txtFinal : Bytes := "client: final serviceguard error".toUTF8.data.toList

/-- `util.Fatal` (util/util.go:24-27). -/
def fatal (e : Bytes) : Exit := ⟨some txtStatus1, txtFatal ++ e ++ [10]⟩

/-- `muteproto deliver` (protoengine/deliver.go:17-37, cmd/muteproto/muteproto.go). The second value
is what was done with the mail. -/
def protoDeliver (utf8 : Bytes → Bool) (E : Env) (input : Bytes) : Exit × Did :=
  match Base64.decode input with
  | none => (fatal txtCorrupt, ⟨none, false, none⟩)
  | some d =>
    let r := deliver E (Out.unmarshal utf8 d)
    match r.2.err with
    | none => (⟨none, []⟩, r.2)
    | some e => if r.1.resend then (⟨none, txtResend ++ e ++ [10]⟩, r.2) else (fatal e, r.2)

/-- The result of `muteprotoDeliver`. -/
inductive Report
  | sent
  | resend
  | error (text : Bytes)
  deriving DecidableEq

/-- `muteprotoDeliver` after the process ended (ctrlengine/msg.go:257-271). -/
def hear (x : Exit) : Report :=
  match x.fault with
  | some t => .error (t ++ txtColon ++ trim x.stderr)
  | none =>
    if x.stderr = [] then .sent
    else if txtResend.isPrefixOf (trim x.stderr) then .resend
    else .error (txtUnparsable ++ trim x.stderr)

/-- What `procOutQueue` makes of it (msg.go:327-357). -/
def judge : Report → Ctrl.Outcome
  | .sent => .accepted
  | .resend => .resend
  | .error t => if txtFinal.isSuffixOf t then .final else .failed

/-- One delivery: the process ends by itself, or is killed after it did everything, having written
anything and with any error. -/
def outcome (utf8 : Bytes → Bool) (E : Env) (killed : Option (Bytes × Bytes)) (env : Bytes) : Ctrl.Outcome :=
  match killed with
  | none => judge (hear (protoDeliver utf8 E env).1)
  | some (t, out) => judge (hear ⟨some t, out⟩)

/-! ### specification -/

/-- The text ends with the text of `client.ErrFinal`, up to blanks. -/
def SaysFinal (t : Bytes) : Prop := ∃ pre post, t = pre ++ txtFinal ++ post ∧ ∀ c ∈ post, isBlank c = true

/-- A text with something to read. -/
def Readable (t : Bytes) : Prop := ∃ c ∈ t, isBlank c = false

/-! ### trimming -/

/-- The blanks at the end are removed. -/
def rtrim (s : Bytes) : Bytes := (s.reverse.dropWhile isBlank).reverse

theorem rtrim_blank (s post : Bytes) (h : ∀ c ∈ post, isBlank c = true) : rtrim (s ++ post) = rtrim s := by
  unfold rtrim
  rw [List.reverse_append]
  congr 1
  have : ∀ l : Bytes, (∀ c ∈ l, isBlank c = true) → (l ++ s.reverse).dropWhile isBlank = s.reverse.dropWhile isBlank := by
    intro l hl
    induction l with
    | nil => rfl
    | cons a l ih =>
      rw [List.cons_append, List.dropWhile_cons_of_pos (hl a (by simp))]
      exact ih fun c hc => hl c (by simp [hc])
  exact this _ fun c hc => h c (by simpa using hc)

theorem rtrim_end (s : Bytes) (c : UInt8) (h : isBlank c = false) : rtrim (s ++ [c]) = s ++ [c] := by
  unfold rtrim
  rw [List.reverse_append, List.reverse_singleton, List.singleton_append, List.dropWhile_cons_of_neg (by simp [h])]
  simp

theorem rtrim_split (s : Bytes) : ∃ post, s = rtrim s ++ post ∧ ∀ c ∈ post, isBlank c = true := by
  refine ⟨(s.reverse.takeWhile isBlank).reverse, ?_, ?_⟩
  · unfold rtrim
    rw [← List.reverse_append, List.takeWhile_append_dropWhile, List.reverse_reverse]
  · intro c hc
    rw [List.mem_reverse] at hc
    have := List.all_takeWhile (p := isBlank) (l := s.reverse)
    rw [List.all_eq_true] at this
    exact this c hc

theorem trim_cons (c : UInt8) (s : Bytes) (h : isBlank c = false) : trim (c :: s) = rtrim (c :: s) := by
  unfold trim rtrim
  rw [List.dropWhile_cons_of_neg (by simp [h])]

/-- A text that does not end in a blank stays, whatever blanks follow. -/
theorem rtrim_keep (s post : Bytes) (hs : ∃ s' c, s = s' ++ [c] ∧ isBlank c = false) (h : ∀ c ∈ post, isBlank c = true) :
    rtrim (s ++ post) = s := by
  obtain ⟨s', c, rfl, hc⟩ := hs
  rw [rtrim_blank _ _ h, rtrim_end _ _ hc]

/-- The last character that is no blank. -/
theorem Readable.split {t : Bytes} (h : Readable t) : ∃ a c post, t = a ++ [c] ++ post ∧ isBlank c = false ∧ ∀ x ∈ post, isBlank x = true := by
  obtain ⟨post, h1, h2⟩ := rtrim_split t
  rcases List.eq_nil_or_concat (rtrim t) with h3 | ⟨a, c, h3⟩
  · obtain ⟨c, hc, hb⟩ := h
    rw [h3, List.nil_append] at h1
    rw [h1] at hc
    rw [h2 c hc] at hb
    cases hb
  · refine ⟨a, c, post, by rw [h1, h3]; simp, ?_, h2⟩
    have h4 : t.reverse.dropWhile isBlank = c :: a.reverse := by
      have : rtrim t = (t.reverse.dropWhile isBlank).reverse := rfl
      rw [h3] at this
      have := congrArg List.reverse this
      rw [List.reverse_reverse] at this
      rw [← this]; simp
    have := List.head?_dropWhile_not isBlank t.reverse
    rw [h4] at this
    simpa using this

theorem txtFinal_end : ∃ s' c, txtFinal = s' ++ [c] ∧ isBlank c = false :=
  ⟨txtFinal.dropLast, 114, by decide +kernel, by decide⟩

theorem txtResend_eq : txtResend = [82, 69, 83, 69, 78, 68, 58, 9] := by decide +kernel

/-! ### the reports are read as they are meant -/

theorem hear_resend (e : Bytes) (h : Readable e) : hear ⟨none, txtResend ++ e ++ [10]⟩ = .resend := by
  obtain ⟨a, c, post, rfl, hc, hp⟩ := h.split
  have e1 : trim (txtResend ++ (a ++ [c] ++ post) ++ [10]) = txtResend ++ (a ++ [c]) := by
    have : txtResend ++ (a ++ [c] ++ post) ++ [10] = 82 :: ([69, 83, 69, 78, 68, 58, 9] ++ (a ++ [c] ++ post) ++ [10]) := by
      rw [txtResend_eq]; rfl
    rw [this, trim_cons _ _ (by decide), ← this]
    have : txtResend ++ (a ++ [c] ++ post) ++ [10] = (txtResend ++ a) ++ [c] ++ (post ++ [10]) := by simp
    rw [this, rtrim_keep _ _ ⟨_, c, rfl, hc⟩ (by
      intro x hx
      rw [List.mem_append] at hx
      rcases hx with hx | hx
      · exact hp x hx
      · rw [List.mem_singleton] at hx; rw [hx]; decide)]
    simp
  unfold hear
  simp only
  rw [if_neg (by simp), e1, if_pos (by rw [List.isPrefixOf_iff_prefix]; exact List.prefix_append _ _)]

/-- No beginning of the text of `client.ErrFinal` is at the end of what is before the error, nor all of it inside. -/
theorem no_overlap : ∀ j, j < (txtStatus1 ++ txtColon ++ txtFatal).length →
    ((txtStatus1 ++ txtColon ++ txtFatal).drop j).take txtFinal.length ≠
      txtFinal.take ((txtStatus1 ++ txtColon ++ txtFatal).drop j).length := by decide +kernel

/-- The error of `muteproto` that asks for a new envelope is recognised, and no other. -/
theorem judge_fatal (e : Bytes) : (SaysFinal e → judge (hear (fatal e)) = .final) ∧ (¬ SaysFinal e → judge (hear (fatal e)) = .failed) := by
  have hf : txtFatal = 109 :: txtFatal.tail := by decide +kernel
  have e0 : trim (txtFatal ++ e ++ [10]) = rtrim (txtFatal ++ e ++ [10]) := by
    have : txtFatal ++ e ++ [10] = 109 :: (txtFatal.tail ++ e ++ [10]) := by
      rw [← List.cons_append, ← List.cons_append, ← hf]
    rw [this, trim_cons _ _ (by decide)]
  have key : judge (hear (fatal e)) =
      if txtFinal.isSuffixOf (txtStatus1 ++ txtColon ++ rtrim (txtFatal ++ e ++ [10])) then .final else .failed := by
    rw [← e0]; rfl
  rw [key]
  constructor
  · rintro ⟨pre, post, rfl, hp⟩
    have : txtFatal ++ (pre ++ txtFinal ++ post) ++ [10] = (txtFatal ++ pre ++ txtFinal) ++ (post ++ [10]) := by simp
    obtain ⟨s', c, hs, hc⟩ := txtFinal_end
    rw [this, rtrim_keep _ _ ⟨txtFatal ++ pre ++ s', c, by rw [hs]; simp, hc⟩ (by
      intro x hx
      rw [List.mem_append] at hx
      rcases hx with hx | hx
      · exact hp x hx
      · rw [List.mem_singleton] at hx; rw [hx]; decide)]
    rw [if_pos]
    rw [List.isSuffixOf_iff_suffix]
    exact ⟨txtStatus1 ++ txtColon ++ (txtFatal ++ pre), by simp⟩
  · intro hn
    rw [if_neg]
    rw [List.isSuffixOf_iff_suffix]
    rintro ⟨pre, hpre⟩
    apply hn
    obtain ⟨post, h1, h2⟩ := rtrim_split (txtFatal ++ e ++ [10])
    have h3 : pre ++ txtFinal ++ post = (txtStatus1 ++ txtColon ++ txtFatal) ++ (e ++ [10]) := by
      rw [hpre, List.append_assoc, List.append_assoc, ← h1]; simp
    generalize hX : txtStatus1 ++ txtColon ++ txtFatal = X at h3
    by_cases hl : X.length ≤ pre.length
    · have h4 : pre = X ++ pre.drop X.length := by
        have := congrArg (List.take X.length) h3
        rw [List.append_assoc, List.take_append_of_le_length hl, List.take_append_of_le_length (Nat.le_refl _), List.take_length] at this
        have h := (List.take_append_drop X.length pre).symm
        rw [this] at h
        exact h
      rw [h4, List.append_assoc, List.append_assoc] at h3
      have h5 := List.append_cancel_left h3
      rcases List.eq_nil_or_concat post with h6 | ⟨p', c, h6⟩
      · rw [h6, List.append_nil] at h5
        obtain ⟨s', c, hs, hc⟩ := txtFinal_end
        rw [hs, ← List.append_assoc] at h5
        have := (List.append_inj' h5 rfl).2
        injection this with this
        rw [this] at hc
        cases hc
      · rw [h6, List.concat_eq_append, ← List.append_assoc, ← List.append_assoc] at h5
        have h7 := (List.append_inj' h5 rfl).1
        exact ⟨_, p', h7.symm, fun x hx => h2 x (by rw [h6]; simp [hx])⟩
    · exfalso
      have hj : pre.length < X.length := by omega
      have := no_overlap pre.length (by rw [hX]; exact hj)
      rw [hX] at this
      apply this
      have h4 := congrArg (List.drop pre.length) h3
      rw [List.append_assoc, List.drop_left, List.drop_append_of_le_length (by omega)] at h4
      rcases List.append_eq_append_iff.mp h4 with ⟨a, ha, -⟩ | ⟨a, ha, -⟩
      · rw [ha, List.take_left, List.take_of_length_le (by simp)]
      · rw [ha, List.take_left, List.take_of_length_le (by simp)]

/-! ### one delivery -/

/-- All texts of errors of the network and the server have something to read. -/
structure Clear (E : Env) : Prop where
  tls : ∀ e, E.tls = some e → Readable e
  mail : ∀ e, E.mailE = some e → Readable e
  rcpt : ∀ e, E.rcptE = some e → Readable e
  data : ∀ e, E.dataE = some e → Readable e
  write : ∀ e, E.writeE = some e → Readable e
  close : ∀ e, E.closeE = some e → Readable e
  quit : ∀ e, E.quitE = some e → Readable e

theorem txtRetry_readable : Readable txtRetry := ⟨114, by decide, by decide⟩

theorem parseError_failed {e e' : Bytes} (h : parseError e = .failed e') (he : Readable e) : Readable e' := by
  unfold parseError at h
  simp only at h
  split at h
  · split at h
    · split at h
      · cases h
      · cases h; exact txtRetry_readable
    · cases h; exact he
  · cases h; exact he

theorem transErr_clear {E : Env} (h : Clear E) {e : Bytes} (he : transErr E = some e) : Readable e := by
  unfold transErr at he
  cases h1 : E.mailE with
  | some x => rw [h1] at he; cases he; exact h.mail _ h1
  | none =>
  cases h2 : E.rcptE with
  | some x => rw [h1, h2] at he; cases he; exact h.rcpt _ h2
  | none =>
  cases h3 : E.dataE with
  | some x => rw [h1, h2, h3] at he; cases he; exact h.data _ h3
  | none =>
  cases h4 : E.writeE with
  | some x => rw [h1, h2, h3, h4] at he; cases he; exact h.write _ h4
  | none =>
    rw [h1, h2, h3, h4] at he
    exact h.close _ he

theorem sendMail_failed {E : Env} (hE : Clear E) {t h : Bytes} {ca : Option Bytes} {e : Bytes} (hs : (sendMail E t h ca).1 = .failed e) : Readable e := by
  unfold sendMail at hs
  split at hs
  · cases hs
  split at hs
  · cases hs; exact txtRetry_readable
  split at hs
  · rename_i o ho
    simp only at hs
    subst hs
    unfold tlsStep at ho
    split at ho
    · split at ho
      · cases ho
      · rw [Option.map_eq_some_iff] at ho
        obtain ⟨x, hx, hp⟩ := ho
        exact parseError_failed hp (hE.tls _ hx)
    · split at ho <;> cases ho
  · unfold finishMail at hs
    split at hs
    · rename_i x hx
      exact parseError_failed hs (transErr_clear hE hx)
    · split at hs
      · rename_i x hx
        exact parseError_failed hs (hE.quit _ hx)
      · cases hs

/-- The envelope is one that is to be sent. -/
def Opens (utf8 : Bytes → Bool) (env : Bytes) (mo : Out) : Prop :=
  ∃ d, Base64.decode env = some d ∧ Out.unmarshal utf8 d = mo ∧ mo.resend = true

theorem protoDeliver_opens {utf8 : Bytes → Bool} {env : Bytes} {mo : Out} (h : Opens utf8 env mo) (E : Env) :
    protoDeliver utf8 E env = (match (sendMail E mo.to_ mo.smartHost mo.caCert).1 with
      | .sent => ⟨none, []⟩
      | .failed e => ⟨none, txtResend ++ e ++ [10]⟩
      | .final l => fatal l, (deliver E mo).2) := by
  obtain ⟨d, h1, h2, h3⟩ := h
  unfold protoDeliver
  simp only [h1, h2]
  unfold deliver
  simp only [h3, if_true]
  cases (sendMail E mo.to_ mo.smartHost mo.caCert).1 with
  | sent => rfl
  | failed e => simp [afterSend, h3]
  | final l => rfl

/-- **C120** The engine takes what happened from the report of the other program as it was: the mail was accepted, has to be sent
again later, needs a new envelope because the token was refused for good, or there was another error. This needs that the texts
of errors are not blank. -/
theorem C120_report (utf8 : Bytes → Bool) (E : Env) (hE : Clear E) (env : Bytes) (mo : Out) (h : Opens utf8 env mo) :
    (outcome utf8 E none env = .accepted ↔ (sendMail E mo.to_ mo.smartHost mo.caCert).1 = .sent) ∧
    (outcome utf8 E none env = .resend ↔ ∃ e, (sendMail E mo.to_ mo.smartHost mo.caCert).1 = .failed e) ∧
    (outcome utf8 E none env = .final ↔ ∃ l, (sendMail E mo.to_ mo.smartHost mo.caCert).1 = .final l ∧ SaysFinal l) ∧
    (outcome utf8 E none env = .failed ↔ ∃ l, (sendMail E mo.to_ mo.smartHost mo.caCert).1 = .final l ∧ ¬ SaysFinal l) := by
  unfold outcome
  simp only [protoDeliver_opens h]
  cases hs : (sendMail E mo.to_ mo.smartHost mo.caCert).1 with
  | sent => simp [hear, judge]
  | failed e =>
    have e1 := hear_resend e (sendMail_failed hE hs)
    simp only [e1]
    simp [judge]
  | final l =>
    by_cases hl : SaysFinal l
    · simp [(judge_fatal l).1 hl, hl]
    · simp [(judge_fatal l).2 hl, hl]

/-- **C120** A message is marked as sent only if the mail server accepted it: exactly the mail of the envelope, for its receiver.
This holds for all texts of errors, and also if the program that delivers is killed. -/
theorem C120_recorded_sent (utf8 : Bytes → Bool) (E : Env) (killed : Option (Bytes × Bytes)) (env : Bytes) (mo : Out)
    (h : Opens utf8 env mo) (ho : outcome utf8 E killed env = .accepted) :
    (deliver E mo).2 = ⟨some (mo.to_, mo.from_, mo.message), true, none⟩ := by
  cases killed with
  | some x =>
    obtain ⟨t, out⟩ := x
    simp only [outcome, hear, judge] at ho
    split at ho <;> cases ho
  | none =>
    simp only [outcome, protoDeliver_opens h] at ho
    obtain ⟨d, -, -, hr⟩ := h
    cases hs : (sendMail E mo.to_ mo.smartHost mo.caCert).1 with
    | final l =>
      rw [hs] at ho
      simp only [hear, fatal, judge] at ho
      split at ho <;> cases ho
    | failed e =>
      rw [hs] at ho
      simp only [hear] at ho
      rw [if_neg (by simp)] at ho
      split at ho
      · cases ho
      · simp only [judge] at ho
        split at ho <;> cases ho
    | sent =>
      rcases sendMail_cases E mo.to_ mo.smartHost mo.caCert with ⟨o, h1, h2⟩ | ⟨e, -, h1⟩ | ⟨-, h1⟩
      · rw [h1] at hs; exact absurd hs h2
      · rw [h1] at hs; exact absurd hs (parseError_ne_sent e)
      · unfold deliver
        rw [if_pos hr]
        simp only [h1]
        rfl

/-- **C120** (partial) A mail that the server accepted is marked as sent, if the program is not killed and the connection is closed
without an error. What is missing is `C120_accepted_again_violated`. -/
theorem C120_accepted_recorded_partial (utf8 : Bytes → Bool) (E : Env) (env : Bytes) (mo : Out) (h : Opens utf8 env mo)
    (ha : (deliver E mo).2.accepted = true) (hq : E.quitE = none) : outcome utf8 E none env = .accepted := by
  have hr := h.choose_spec.2.2
  simp only [outcome, protoDeliver_opens h]
  unfold deliver at ha
  rw [if_pos hr] at ha
  simp only at ha
  rcases sendMail_cases E mo.to_ mo.smartHost mo.caCert with ⟨o, h1, h2⟩ | ⟨e, he, -⟩ | ⟨-, h1⟩
  · rw [h1] at ha; cases ha
  · rw [hq] at he; cases he
  · rw [h1]; rfl

/-- **C120** (finding) A mail that the server accepted is sent again if the connection breaks before its end is confirmed. -/
theorem C120_accepted_again_violated (utf8 : Bytes → Bool) (E : Env) (env : Bytes) (mo : Out) (h : Opens utf8 env mo)
    (ha : (deliver E mo).2.accepted = true) (hq : E.quitE = some "EOF".toUTF8.data.toList) : outcome utf8 E none env = .resend := by
  have hr := h.choose_spec.2.2
  simp only [outcome, protoDeliver_opens h]
  unfold deliver at ha
  rw [if_pos hr] at ha
  simp only at ha
  rcases sendMail_cases E mo.to_ mo.smartHost mo.caCert with ⟨o, h1, h2⟩ | ⟨e, he, h1⟩ | ⟨h1, -⟩
  · rw [h1] at ha; cases ha
  · rw [hq] at he
    injection he with he
    subst he
    rw [h1]
    have : parseError "EOF".toUTF8.data.toList = .failed "EOF".toUTF8.data.toList := by decide +kernel
    rw [this]
    simp only
    rw [hear_resend _ ⟨69, by decide +kernel, by decide⟩]
    rfl
  · rw [hq] at h1; cases h1

/-- The first thing the server refuses in a connection that is made. -/
def Refuses (E : Env) (mo : Out) (reply : Bytes) : Prop :=
  mailHost E mo.to_ mo.smartHost ≠ [] ∧ E.dial = none ∧ tlsStep E mo.caCert = none ∧ transErr E = some reply

theorem sendMail_refuses {E : Env} {mo : Out} {reply : Bytes} (h : Refuses E mo reply) :
    (sendMail E mo.to_ mo.smartHost mo.caCert).1 = parseError reply := by
  obtain ⟨h1, h2, h3, h4⟩ := h
  unfold sendMail
  rw [if_neg h1, if_neg (by simp [h2]), h3]
  simp only [finishMail, h4]

/-- **C120** What a reply of the server leads to: with a code below 500 the message is sent again later, with another code it is
encrypted anew if the text says that the token was refused for good, and else the sending ends with an error. -/
theorem C120_reply (utf8 : Bytes → Bool) (E : Env) (env : Bytes) (mo : Out) (h : Opens utf8 env mo)
    (a b c z : UInt8) (text : Bytes) (ha : 48 ≤ a ∧ a ≤ 57) (hb : 48 ≤ b ∧ b ≤ 57) (hc : 48 ≤ c ∧ c ≤ 57) (hz : z ≠ 32 ∧ z ≠ 9)
    (hr : Refuses E mo (a :: b :: c :: 32 :: (text ++ [z]))) :
    (a < 53 → outcome utf8 E none env = .resend) ∧
    (53 ≤ a → SaysFinal (a :: b :: c :: 32 :: (text ++ [z])) → outcome utf8 E none env = .final) ∧
    (53 ≤ a → ¬ SaysFinal (a :: b :: c :: 32 :: (text ++ [z])) → outcome utf8 E none env = .failed) := by
  simp only [outcome, protoDeliver_opens h, sendMail_refuses hr, C29_reply_code a b c z text ha hb hc hz]
  refine ⟨fun h1 => ?_, fun h1 h2 => ?_, fun h1 h2 => ?_⟩
  · rw [if_neg (by rw [UInt8.not_le]; exact h1)]
    simp only
    rw [hear_resend _ txtRetry_readable]
    rfl
  · rw [if_pos h1]; exact (judge_fatal _).1 h2
  · rw [if_pos h1]; exact (judge_fatal _).2 h2

/-- **C120** (finding) A refusal for good without a text, "550 ", is taken for a temporary one: the message is sent again and again
and nobody is told. -/
theorem C120_bare_reply_violated (utf8 : Bytes → Bool) (E : Env) (env : Bytes) (mo : Out) (h : Opens utf8 env mo)
    (hr : Refuses E mo [53, 53, 48, 32]) : outcome utf8 E none env = .resend := by
  simp only [outcome, protoDeliver_opens h, sendMail_refuses hr]
  rw [show parseError [53, 53, 48, 32] = .failed [53, 53, 48, 32] by decide]
  simp only
  rw [hear_resend _ ⟨53, by decide, by decide⟩]
  rfl

/-! ### histories -/

/-- The parts of the world that stay the same: the cipher, the texts that are UTF-8, the header of mails, the sender and the
certificate. -/
structure World where
  P : Prims
  utf8 : Bytes → Bool
  head : Bytes → Bytes
  sender : Bytes
  ca : Bytes

/-- The envelope was made by `muteproto create` from this ciphertext, for the nym address and delays of the entry; see
msg.go:294-313. Envelopes have less than 2^31 bytes. -/
def World.Envelope (W : World) (na : Bytes) (min max : Int) (enc env : Bytes) : Prop :=
  env.length < 2 ^ 31 ∧ ∃ clock revoke eph nonce token, create W.P W.utf8 clock W.head W.sender W.ca revoke eph nonce min max token na enc = some env

/-- The answer to a step comes from the two programs. -/
structure World.Real (W : World) (s : St) (r : Reply) : Prop where
  create : ∀ old i e env, s.pc = .create old i e → r.env = some env → W.Envelope e.nymaddress e.minDelay e.maxDelay e.msg env
  deliver : ∀ old i e msg, s.pc = .deliver old i e msg → ∃ E killed, r.outcome = outcome W.utf8 E killed msg

/-- The histories in which all answers to the creation and delivery of envelopes come from the two programs. -/
inductive World.Hist (W : World) (I : Msgdb.Ids) : St → Prop
  | new : W.Hist I St.new
  | act (s a) : W.Hist I s → (∀ r, a = .step r → W.Real s r) → W.Hist I (s.act I a)

theorem run_append (I : Msgdb.Ids) (as : List Act) (a : Act) (s : St) : s.run I (as ++ [a]) = (s.run I as).act I a := by
  induction as generalizing s with
  | nil => rfl
  | cons b as ih => exact ih (s.act I b)

theorem World.Hist.run {W : World} {I : Msgdb.Ids} {s : St} (h : W.Hist I s) : ∃ as, s = St.new.run I as := by
  induction h with
  | new => exact ⟨[], rfl⟩
  | act s a _ _ ih =>
    obtain ⟨as, rfl⟩ := ih
    exact ⟨as ++ [a], (run_append I as a St.new).symm⟩

/-- What the log says is true. -/
def World.Truth (W : World) : Ev → Prop
  | .created _ enc na min max env => W.Envelope na min max enc env
  | .accepted _ env _ => ∃ E killed, outcome W.utf8 E killed env = .accepted
  | _ => True

theorem next_log (s : St) : s.next.log = s.log := by unfold St.next; split <;> rfl
theorem leave_log (s : St) (old : Bool) : (s.leave old).log = s.log := by
  unfold St.leave; split
  · rfl
  · exact next_log s
theorem after_log (s : St) (pc : Pc) (x : Except Msgdb.Err Msgdb.Db) : (s.after pc x).log = s.log := by cases x <;> rfl

theorem step_truth {W : World} {I : Msgdb.Ids} {s : St} {r : Reply} (hr : W.Real s r) (h : ∀ e ∈ s.log, W.Truth e) : ∀ e ∈ (s.step I r).log, W.Truth e := by
  have same : ∀ t : St, t.log = s.log → ∀ e ∈ t.log, W.Truth e := fun t ht => by rw [ht]; exact h
  unfold St.step
  split
  · exact same _ (after_log ..)
  · split
    · exact same _ rfl
    · rename_i x _
      apply same
      unfold St.got
      split
      · exact leave_log ..
      · split
        · exact leave_log ..
        · split <;> rfl
  · rename_i old i e hpc
    split
    · exact same _ rfl
    · rename_i env he
      intro ev hev
      rcases List.mem_cons.mp hev with rfl | hev
      · exact hr.create old i e env hpc he
      · exact h ev hev
  · exact same _ (after_log ..)
  · rename_i old i e msg hpc
    unfold St.delivered
    split
    · rename_i ho
      intro ev hev
      rcases List.mem_cons.mp hev with rfl | hev
      · obtain ⟨E, k, hk⟩ := hr.deliver old i e msg hpc
        exact ⟨E, k, by rw [← hk]; exact ho⟩
      · exact h ev hev
    · exact same _ rfl
    · exact same _ rfl
    · exact same _ rfl
  · exact same _ (after_log ..)
  · exact same _ (after_log ..)
  · exact same _ (after_log ..)
  · split
    · exact same _ rfl
    · apply same
      unfold St.picked
      split
      · rfl
      · split
        · rfl
        · split <;> rfl
  · split
    · exact same _ rfl
    · exact same _ rfl
  · split
    · exact same _ rfl
    · intro ev hev
      rcases List.mem_cons.mp hev with rfl | hev
      · trivial
      · exact h ev hev
  · exact same _ (after_log ..)
  · exact h
  · exact h

theorem World.Hist.truth {W : World} {I : Msgdb.Ids} {s : St} (h : W.Hist I s) : ∀ e ∈ s.log, W.Truth e := by
  induction h with
  | new => intro e he; cases he
  | act s a _ hr ih =>
    cases a with
    | step r => exact step_truth (hr r rfl) ih
    | crash => exact ih
    | start nyms =>
      have : (s.act I (.start nyms)).log = s.log := by
        unfold St.act St.start
        rw [next_log]
      rw [this]; exact ih
    | user op =>
      unfold St.act
      simp only
      split
      · unfold St.user
        split
        · exact ih
        · intro e he
          rw [List.mem_append] at he
          rcases he with he | he
          · unfold addedBy at he
            split at he
            · rw [List.mem_singleton] at he; subst he; trivial
            · split at he
              · cases he
              · rw [List.mem_singleton] at he; subst he; trivial
            · cases he
          · exact ih e he
      · exact ih

/-- What `muteproto create` makes: an envelope with the relay message for the mix of the nym address. -/
theorem create_opens {W : World} {clock : Int} {revoke eph nonce : Bytes} {min max : Int} {token na enc env : Bytes}
    (h : create W.P W.utf8 clock W.head W.sender W.ca revoke eph nonce min max token na enc = some env) (hl : env.length < 2 ^ 31) :
    ∃ m t a e to, Base64.decode enc = some m ∧ Base64.decode token = some t ∧ Base64.decode na = some a ∧
      newRelay W.P clock ⟨0, min, max, some t, [], none⟩ a m revoke eph nonce = .ok (e, to) ∧
      ((∃ mo, Opens W.utf8 env mo ∧ mo.to_ = to ∧ mo.from_ = W.sender ∧ mo.message = some (W.head to ++ writeMailBody e)) ∨
        env = []) := by
  unfold create at h
  simp only [Option.bind_eq_bind, Option.bind_eq_some_iff] at h
  obtain ⟨m, h1, t, h2, a, h3, h⟩ := h
  cases hn : newRelay W.P clock ⟨0, min, max, some t, [], none⟩ a m revoke eph nonce with
  | err x => rw [hn] at h; cases h
  | panic => rw [hn] at h; cases h
  | ok x =>
    obtain ⟨e, to⟩ := x
    rw [hn] at h
    simp only [Option.some.injEq] at h
    refine ⟨m, t, a, e, to, h1, h2, h3, hn, ?_⟩
    cases hm : Out.marshal W.utf8 ⟨some (W.head to ++ writeMailBody e), to, W.sender, some revoke, 587, [], some W.ca, none, true⟩ with
    | none =>
      rw [hm] at h
      exact .inr h.symm
    | some d =>
      rw [hm] at h
      simp only [Option.getD_some] at h
      subst h
      left
      have hp : I64 (587 : Int) := by unfold I64; omega
      have hd : d.length < 2 ^ 31 := by
        have := Base64.encode_length d
        omega
      refine ⟨_, ⟨d, Base64.decode_encode d, C29_round_trip_partial _ _ d hm hp hd, rfl⟩, rfl, rfl, rfl⟩

/-- An empty envelope is never accepted. -/
theorem outcome_empty (utf8 : Bytes → Bool) (E : Env) (k : Option (Bytes × Bytes)) : outcome utf8 E k [] ≠ .accepted := by
  cases k with
  | some x =>
    obtain ⟨t, out⟩ := x
    simp only [outcome, hear, judge]
    split <;> simp
  | none =>
    have : protoDeliver utf8 E [] = (fatal txtAlreadySent, ⟨none, false, some txtAlreadySent⟩) := rfl
    simp only [outcome, this, hear, fatal, judge]
    split <;> simp

/-- **C120** In every history of the engine and the program that makes and delivers envelopes, including crashes of both: if a message
is marked as sent, then a mail server accepted a mail to a mix, and this mail holds, for this mix, the message encrypted for its
recipient, to be sent on to the nym address of the recipient after the delays of the message. -/
theorem C120_sent_is_sent (W : World) (I : Msgdb.Ids) (s : St) (h : W.Hist I s) (i : Nat) (m : Msgdb.Message) (hm : (i, m) ∈ s.db.messages) (hs : m.sent = true) :
    ∃ enc nym plain na, Ev.encrypted i m.to m.message m.sign enc nym ∈ s.log ∧ Base64.decode enc = some plain ∧ Base64.decode nym = some na ∧
      ∃ clock token revoke eph nonce relay mix,
        newRelay W.P clock ⟨0, m.minDelay, m.maxDelay, some token, [], none⟩ na plain revoke eph nonce = .ok (relay, mix) ∧
        ∃ E mo, (deliver E mo).2 = ⟨some (mix, W.sender, some (W.head mix ++ writeMailBody relay)), true, none⟩ := by
  obtain ⟨as, rfl⟩ := h.run
  obtain ⟨enc, na, env, now, h1, h2, h3, _⟩ := C45_sent_was_accepted as i m hm hs
  have sub : ∀ e, e ∈ since i (St.new.run I as).log → e ∈ (St.new.run I as).log := fun e he => (List.takeWhile_prefix _).subset he
  have t2 := h.truth _ (sub _ h2)
  have t3 := h.truth _ (sub _ h3)
  obtain ⟨hl, clock, revoke, eph, nonce, token, ht⟩ := t2
  obtain ⟨E, k, hk⟩ := t3
  obtain ⟨p, t, a, e, to, d1, -, d2, d3, d4⟩ := create_opens ht hl
  refine ⟨enc, na, p, a, sub _ h1, d1, d2, clock, t, revoke, eph, nonce, e, to, d3, ?_⟩
  rcases d4 with ⟨mo, o1, o2, o3, o4⟩ | rfl
  · refine ⟨E, mo, ?_⟩
    rw [C120_recorded_sent W.utf8 E k env mo o1 hk, o2, o3, o4]
  · exact absurd hk (outcome_empty W.utf8 E k)

/-- **C120** From the sender to the owner of the nym address: if a message whose envelope was made for a nym address is recorded as sent,
then a server accepted a mail to a mix of the owner, and if this mix reads the mail before the address expires, it gets the message
and relays it to the mailbox of the owner, who reads exactly the message and the nym. The conditions on sizes are those of the
mix (C26) and of mails (C31). -/
theorem C120_end_to_end (W : World) (hP : W.P.Good) (t : Template) (ht : t.Fits) (hsys : t.system = 0)
    (c0 c1 c2 : Int) (mailbox nym : Bytes) (r : Nat) (e0 n0 na : Bytes) (hn0 : n0.length = 32)
    (hb : newAddress W.P c0 t mailbox nym r e0 n0 = .ok na)
    (min max : Int) (token msg revoke e1 n1 env : Bytes) (hn1 : n1.length = 32) (hc1 : c1 ≤ t.expire) (hc2 : c2 ≤ t.expire)
    (hp : (Hdr.forRelay ⟨0, min, max, some token, [], none⟩ na revoke).Plain) (hs : (Hdr.forRelay ⟨0, min, max, some token, [], none⟩ na revoke).Short)
    (hm : 4096 ≤ msg.length ∧ msg.length ≤ 65536)
    (hc : create W.P W.utf8 c1 W.head W.sender W.ca revoke e1 n1 min max (Base64.encode token) (Base64.encode na) (Base64.encode msg) = some env)
    (hl : env.length < 2 ^ 31) (E : Env) (killed : Option (Bytes × Bytes)) (ho : outcome W.utf8 E killed env = .accepted) :
    ∃ m ∈ t.mixes, ∀ look k, m.pubkey = W.P.pub k → look (W.P.pub k) = some k →
      ∃ body mo, (deliver E mo).2 = ⟨some (m.address, W.sender, some (W.head m.address ++ body)), true, none⟩ ∧
        (body.length ≤ maxMailSize → ∃ e rs, readMailBody body = .ok e ∧ receive W.P c2 look e = .ok rs ∧ rs.message = msg ∧
          rs.hdr.token = some token ∧ rs.hdr.minDelay = min ∧ rs.hdr.maxDelay = max ∧
          ∀ e2, ∃ out, send W.P e2 rs = .ok (out, mailbox ++ domain) ∧ receiveFromMix W.P t mailbox out = .ok (msg, fix32 nym)) := by
  obtain ⟨p, t', a, e, to, d1, d2, d3, d4, d5⟩ := create_opens hc hl
  rw [Base64.decode_encode] at d1 d2 d3
  cases d1; cases d2; cases d3
  obtain ⟨m, hmem, hrel⟩ := C26_relay W.P hP t ht hsys c0 c1 c2 mailbox nym r e0 n0 na hn0 hb ⟨0, min, max, some token, [], none⟩ msg revoke e1 n1 hn1 hc1 hc2 hp hs hm
  refine ⟨m, hmem, fun look k h1 h2 => ?_⟩
  obtain ⟨e', rs, r1, r2, r3, r4, r5⟩ := hrel look k h1 h2
  rw [d4] at r1
  cases r1
  rcases d5 with ⟨mo, o1, o2, o3, o4⟩ | rfl
  · refine ⟨writeMailBody e, mo, ?_, fun hsz => ⟨e, rs, ?_, r2, r4, by rw [r3], by rw [r3], by rw [r3], r5⟩⟩
    · rw [C120_recorded_sent W.utf8 E killed env mo o1 ho, o2, o3, o4]
    · rw [C31_mail_body_round_trip, if_neg (by omega)]
  · exact absurd ho (outcome_empty W.utf8 E killed)

/-! ### a message that is refused -/

deriving instance DecidableEq for Msgdb.Nym, Msgdb.Contact, Msgdb.Account, Msgdb.Message, Msgdb.InEntry, Msgdb.CacheEntry
deriving instance DecidableEq for Msgdb.Db, St

/-- The send command with a world that answers every state: as many steps as given. -/
def goOn (I : Msgdb.Ids) (f : St → Reply) (s : St) : Nat → St
  | 0 => s
  | k + 1 => goOn I f (s.step I (f s)) k

/-- A world where one envelope is refused for good and all others are accepted. -/
def refusing (env : Bytes) (s : St) : Reply :=
  match s.pc with
  | .create _ _ e => { goodReply with env := some (0 :: e.msg) }
  | .encrypt _ x => { goodReply with enc := some (1 :: x.msg, [11]) }
  | .deliver _ _ _ msg => { goodReply with outcome := if msg = env then .failed else .accepted }
  | _ => goodReply

/-- Calling the send command again and again, which takes at most `k` steps. -/
def again (f : St → Reply) (nyms : List Bytes) (k : Nat) (s : St) : Nat → St
  | 0 => s
  | n + 1 => again f nyms k (goOn properI f (s.start nyms) k) n

/-- If the second call changes nothing, no call does. -/
theorem again_fix (f : St → Reply) (nyms : List Bytes) (k : Nat) (s : St)
    (h : goOn properI f ((goOn properI f (s.start nyms) k).start nyms) k = goOn properI f (s.start nyms) k) (n : Nat) :
    again f nyms k s (n + 1) = goOn properI f (s.start nyms) k := by
  have fix : ∀ n t, goOn properI f (t.start nyms) k = t → again f nyms k t n = t := by
    intro n t ht
    induction n with
    | zero => rfl
    | succ n ih => rw [again, ht, ih]
  rw [again]
  exact fix n _ h

/-- Two nyms with three messages. -/
def threeMessages : List Act :=
  [.user (.addNym [1] [1] []), .user (.addNym [3] [3] []), .user (.addContact [1] [2] [2] [] 0), .user (.addContact [3] [2] [2] [] 0),
    .user (.addMessage [1] [2] 5 true [7] false 0 0), .user (.addMessage [1] [2] 6 true [8] false 0 0), .user (.addMessage [3] [2] 6 true [9] false 0 0)]

/-- With a world that accepts everything all of them are sent. -/
example : (again (refusing []) [[1], [3]] 40 (St.new.run properI threeMessages) 1).db.messages.map (fun r => r.2.sent) = [true, true, true] := by decide +kernel

/-- **C120** (finding) A message that the mix refuses for good (other than for its token) blocks all messages behind it for ever: those of the
same nym and those of the nyms after it are never sent, however often the send command is called, though the mix would accept them. -/
theorem C120_refused_blocks_violated (n : Nat) :
    (again (refusing [0, 1, 7]) [[1], [3]] 40 (St.new.run properI threeMessages) (n + 1)).db.messages.map (fun r => r.2.sent) = [false, false, false] ∧
    (again (refusing [0, 1, 7]) [[1], [3]] 40 (St.new.run properI threeMessages) (n + 1)).pc = .failed := by
  have h : goOn properI (refusing [0, 1, 7]) ((goOn properI (refusing [0, 1, 7]) ((St.new.run properI threeMessages).start [[1], [3]]) 40).start [[1], [3]]) 40 =
      goOn properI (refusing [0, 1, 7]) ((St.new.run properI threeMessages).start [[1], [3]]) 40 := by decide +kernel
  rw [again_fix (refusing [0, 1, 7]) [[1], [3]] 40 (St.new.run properI threeMessages) h n]
  exact ⟨by decide +kernel, by decide +kernel⟩

/-! ### examples -/

/-- An envelope that opens. -/
def toyEnv : Bytes := Base64.encode ((toyOut.marshal fun _ => true).getD [])

theorem toyEnv_opens : Opens (fun _ => true) toyEnv toyOut.stored := by
  refine ⟨(toyOut.marshal fun _ => true).getD [], Base64.decode_encode _, ?_, rfl⟩
  have hp : I64 toyOut.port := by unfold I64 toyOut; simp only; omega
  exact C29_round_trip_partial (fun _ => true) toyOut _ rfl hp (marshal_length (fun _ => true) toyOut _ rfl hp (by decide))

/-- A server that has a certificate, and answers with the given errors. -/
def toyServer (rcpt quit : Option Bytes) : Env := ⟨fun _ => [104], none, true, fun _ => true, none, none, rcpt, none, none, none, quit⟩

example : outcome (fun _ => true) (toyServer none none) none toyEnv = .accepted :=
  C120_accepted_recorded_partial _ _ _ _ toyEnv_opens (by decide) rfl

example : Clear (toyServer (some [69]) none) :=
  ⟨nofun, nofun, fun e h => by cases h; exact ⟨69, by simp, by decide⟩, nofun, nofun, nofun, nofun⟩

example : outcome (fun _ => true) (toyServer none (some "EOF".toUTF8.data.toList)) none toyEnv = .resend :=
  C120_accepted_again_violated _ _ _ _ toyEnv_opens (by decide +kernel) rfl

/-- The replies "450 no", "550 no", "550 client: final serviceguard error" and "550 ". -/
example : outcome (fun _ => true) (toyServer (some [52, 53, 48, 32, 110, 111]) none) none toyEnv = .resend :=
  (C120_reply _ _ _ _ toyEnv_opens 52 53 48 111 [110] (by decide) (by decide) (by decide) (by decide) ⟨by decide, rfl, by decide, rfl⟩).1 (by decide)
example : outcome (fun _ => true) (toyServer (some ([53, 53, 48, 32] ++ txtFinal)) none) none toyEnv = .final := by
  have h : (some ([53, 53, 48, 32] ++ txtFinal) : Option Bytes) = some (53 :: 53 :: 48 :: 32 :: (txtFinal.dropLast ++ [114])) := by decide +kernel
  rw [h]
  refine (C120_reply _ _ _ _ toyEnv_opens 53 53 48 114 txtFinal.dropLast (by decide) (by decide) (by decide) (by decide) ⟨by decide, rfl, by decide, rfl⟩).2.1 (by decide)
    ⟨[53, 53, 48, 32], [], by decide +kernel, by simp⟩
example : outcome (fun _ => true) (toyServer (some [53, 53, 48, 32]) none) none toyEnv = .resend :=
  C120_bare_reply_violated _ _ _ _ toyEnv_opens ⟨by decide, rfl, by decide, rfl⟩

/-- A world with the toy cipher. -/
def toyWorld : World := ⟨toy, fun _ => true, fun _ => [72], [115], [99]⟩

/-- The envelope of a message for the toy address. -/
def toyCreated (msg : Bytes) : Option Bytes :=
  create toyWorld.P toyWorld.utf8 20 toyWorld.head toyWorld.sender toyWorld.ca (List.replicate 32 6) [11] (List.replicate 32 12) 1 2
    (Base64.encode [4]) (Base64.encode toyAddr.asn1) (Base64.encode msg)

/-- `C120_end_to_end` for the toy world. -/
example : ∃ env, toyCreated toyMsg = some env ∧ env.length < 2 ^ 31 ∧ outcome toyWorld.utf8 (toyServer none none) none env = .accepted := by
  have h1 : ((toyCreated toyMsg).map fun env => decide (env.length < 2 ^ 31 ∧ outcome toyWorld.utf8 (toyServer none none) none env = .accepted)) = some true := by
    decide +kernel
  cases h : toyCreated toyMsg with
  | none => rw [h] at h1; cases h1
  | some env =>
    rw [h] at h1
    simp only [Option.map_some, Option.some.injEq, decide_eq_true_eq] at h1
    exact ⟨env, rfl, h1⟩

example (env : Bytes) (hc : toyCreated toyMsg = some env) (hl : env.length < 2 ^ 31) (E : Env) (ho : outcome toyWorld.utf8 E none env = .accepted) :=
  C120_end_to_end toyWorld toy_good toyTemplate toyTemplate_fits rfl 10 20 30 [97, 64] [9] 0 [8] (List.replicate 32 3) toyAddr.asn1
    (by simp) toy_newAddress 1 2 [4] toyMsg (List.replicate 32 6) [11] (List.replicate 32 12) env (by simp)
    (by simp [toyTemplate]) (by simp [toyTemplate]) (toyHdr_plain _)
    (toyHdr_length typeRelay (by simp [I32, typeRelay]) _ (toyAddr_length 1000 (by simp [I64])) _ (by simp)).1 (by rw [toyMsg_length]; omega) hc hl E none ho

/-- The text and the address of a history. -/
def toyText : Bytes := Base64.encode [1, 2, 3]
def toyNa : Bytes := Base64.encode toyAddr.asn1

/-- An answer that is real in every state: `muteproto` is killed or does not start. -/
def deadReply : Reply := ⟨none, .failed, 100, some [30], some (toyText, toyNa)⟩

theorem deadReply_real (s : St) : toyWorld.Real s deadReply :=
  ⟨fun _ _ _ _ _ h => (by cases h), fun _ _ _ _ _ => ⟨toyServer none none, some ([107], []), (by decide +kernel : Outcome.failed = judge (hear ⟨some [107], []⟩))⟩⟩

/-- A nym with one message, up to the making of its envelope. -/
def toyActs : List Act :=
  [.user (.addNym [1] [1] []), .user (.addContact [1] [2] [2] [] 0), .user (.addMessage [1] [2] 5 true [7, 8] false 1 2), .start [[1]]] ++
  List.replicate 8 (.step deadReply)

theorem toyActs_hist : toyWorld.Hist properI (St.new.run properI toyActs) := by
  have key : ∀ (as : List Act) (s : St), (∀ a ∈ as, ∀ r, a = .step r → r = deadReply) → toyWorld.Hist properI s → toyWorld.Hist properI (s.run properI as) := by
    intro as
    induction as with
    | nil => exact fun s _ h => h
    | cons a as ih =>
      intro s ha h
      exact ih _ (fun b hb => ha b (by simp [hb])) (.act s a h fun r hr => by rw [ha a (by simp) r hr]; exact deadReply_real s)
  refine key _ _ ?_ .new
  intro a ha r hr
  subst hr
  simp [toyActs] at ha
  exact ha

theorem of_any (l : List (Nat × Msgdb.Message)) (h : l.any (fun r => r.2.sent) = true) : ∃ i m, (i, m) ∈ l ∧ m.sent = true := by
  rw [List.any_eq_true] at h
  obtain ⟨⟨i, m⟩, h1, h2⟩ := h
  exact ⟨i, m, h1, h2⟩

/-- The hypotheses of `C120_sent_is_sent` are met: a history in which a message is sent. -/
example : ∃ s, toyWorld.Hist properI s ∧ ∃ i m, (i, m) ∈ s.db.messages ∧ m.sent = true := by
  have h1 : ∃ env, toyCreated [1, 2, 3] = some env ∧ env.length < 2 ^ 31 := by
    have h1 : ((toyCreated [1, 2, 3]).map fun env => decide (env.length < 2 ^ 31)) = some true := by decide +kernel
    cases h : toyCreated [1, 2, 3] with
    | none => rw [h] at h1; cases h1
    | some env =>
      rw [h] at h1
      simp only [Option.map_some, Option.some.injEq, decide_eq_true_eq] at h1
      exact ⟨env, rfl, h1⟩
  have r1 : toyWorld.Real (St.new.run properI toyActs) { deadReply with env := toyCreated [1, 2, 3] } := by
    constructor
    · intro old i e env he hr
      have hpc : (St.new.run properI toyActs).pc = .create false 1 ⟨1, 1, toyText, toyNa, 1, 2, false, false⟩ := by decide +kernel
      rw [hpc] at he
      cases he
      obtain ⟨env', h1, h2⟩ := h1
      simp only at hr
      rw [hr] at h1
      cases h1
      exact ⟨h2, _, _, _, _, _, hr⟩
    · exact (deadReply_real _).deliver
  have a1 := World.Hist.act _ (.step { deadReply with env := toyCreated [1, 2, 3] }) toyActs_hist (fun r hr => by cases hr; exact r1)
  have a2 := World.Hist.act _ (.step deadReply) a1 (fun r hr => by cases hr; exact deadReply_real _)
  have a3 := World.Hist.act _ (.step { deadReply with outcome := .accepted }) a2 (fun r hr => by
    cases hr
    constructor
    · exact fun _ _ _ _ _ h => (by cases h)
    · intro old i e msg he
      have hpc : (((St.new.run properI toyActs).act properI (.step { deadReply with env := toyCreated [1, 2, 3] })).act properI (.step deadReply)).pc =
          .deliver false 1 ⟨1, 1, toyText, toyNa, 1, 2, false, false⟩ ((toyCreated [1, 2, 3]).getD []) := by decide +kernel
      rw [hpc] at he
      cases he
      exact ⟨toyServer none none, none, by decide +kernel⟩)
  have a4 := World.Hist.act _ (.step deadReply) a3 (fun r hr => by cases hr; exact deadReply_real _)
  exact ⟨_, a4, of_any _ (by decide +kernel)⟩

end Verif.Ctrl.Deliver

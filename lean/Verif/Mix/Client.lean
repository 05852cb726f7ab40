/-
The mix client (mix/client, mix/smtpclient): outgoing messages and their delivery (C29),
the retry loop of account calls (C30) and listing messages (C80).

SMTP servers, DNS and account servers are arguments: every theorem holds for all their
answers. Errors are modelled by their texts.
-/
import Verif.Mix.Addr
import Verif.Util.Model

namespace Verif.Mix
open Verif.Asn1

/-! ### mix/smtpclient/client.go -/

/-- `strconv.Atoi` (decimal, optional sign, int64 range). -/
def atoiDigits : Bytes → Option Nat
  | [] => none
  | c :: cs => (c :: cs).foldl (fun a d => a.bind fun n =>
      if 48 ≤ d ∧ d ≤ 57 then some (n * 10 + (d.toNat - 48)) else none) (some 0)

def atoi (s : Bytes) : Option Int :=
  match s with
  | 43 :: r => (atoiDigits r).bind fun n => if n < 2 ^ 63 then some n else none
  | 45 :: r => (atoiDigits r).bind fun n => if n ≤ 2 ^ 63 then some (-n) else none
  | r => (atoiDigits r).bind fun n => if n < 2 ^ 63 then some n else none

/-- Result of `SendMail`: success, `ErrFinal` with `LastError`, or another error. -/
inductive Outcome where
  | sent
  | final (last : Bytes)
  | failed (e : Bytes)
  deriving DecidableEq, Repr

/-- `ErrRetry` and the texts of the other errors of the package (client.go:22-33). -/
def txtRetry : Bytes := [114, 101, 116, 114, 121]
def txtNoHost : Bytes := [104, 111, 115, 116]
def txtNoTLS : Bytes := [116, 108, 115]

/-- `strings.Trim(str, " \t")`. -/
def trimBlank (s : Bytes) : Bytes :=
  let f := fun c : UInt8 => c == 32 || c == 9
  ((s.dropWhile f).reverse.dropWhile f).reverse

/-- `parseError` of an error with the given text (client.go:80-103). -/
def parseError (e : Bytes) : Outcome :=
  let s := trimBlank e
  if 32 ∈ s ∧ s.head? ≠ some 32 then
    match atoi (s.takeWhile (· != 32)) with
    | some n => if 500 ≤ n then .final e else .failed txtRetry
    | none => .failed e
  else .failed e

/-- What the network does during one `SendMail` call: the MX host found for the
receiver's domain ("" if none), and the errors of each step. -/
structure Env where
  mx : Bytes → Bytes
  dial : Option Bytes
  starttls : Bool
  /-- `AppendCertsFromPEM` finds a certificate -/
  pem : Bytes → Bool
  tls : Option Bytes
  mailE : Option Bytes
  rcptE : Option Bytes
  dataE : Option Bytes
  writeE : Option Bytes
  closeE : Option Bytes
  quitE : Option Bytes

/-- The TLS part (client.go:135-157): what ends the call, if anything. -/
def tlsStep (E : Env) (ca : Option Bytes) : Option Outcome :=
  if E.starttls then
    if ca.any (fun c => !E.pem c) then some (.final txtNoTLS) else E.tls.map parseError
  else if ca.isSome then some (.final txtNoTLS) else none

/-- The first error of the transaction up to the server's acceptance of the data
(client.go:181-204). -/
def transErr (E : Env) : Option Bytes := E.mailE <|> E.rcptE <|> E.dataE <|> E.writeE <|> E.closeE

/-- The end of `SendMail`: after the data was accepted, the error of `Quit` is returned
(client.go:205-206). The second value says whether the server accepted the mail. -/
def finishMail (E : Env) : Outcome × Bool :=
  match transErr E with
  | some e => (parseError e, false)
  | none => match E.quitE with
    | some e => (parseError e, true)
    | none => (.sent, true)

/-- The host a mail is sent to (client.go:117-121). -/
def mailHost (E : Env) (to_ smartHost : Bytes) : Bytes := if smartHost = [] then E.mx to_ else smartHost

/-- `SendMail` without user and password, as the mix client calls it (client.go:105-207). -/
def sendMail (E : Env) (to_ smartHost : Bytes) (ca : Option Bytes) : Outcome × Bool :=
  if mailHost E to_ smartHost = [] then (.final txtNoHost, false)
  else if E.dial.isSome then (.failed txtRetry, false)
  else match tlsStep E ca with
    | some o => (o, false)
    | none => finishMail E

/-! ### mix/client/send.go -/

/-- `MessageOutput` (send.go:26-36). `none` is nil. -/
structure Out where
  message : Option Bytes
  to_ : Bytes
  from_ : Bytes
  revokeID : Option Bytes
  port : Int
  smartHost : Bytes
  caCert : Option Bytes
  error : Option Bytes
  resend : Bool
  deriving DecidableEq, Repr

/-- `ErrAlreadySent`. -/
def txtAlreadySent : Bytes := [97, 108, 114, 101, 97, 100, 121]

/-- A reply of an SMTP server: three digits, a blank and a text that does not end in a
blank. Codes from 500 are final, all others are retried. -/
theorem C29_reply_code (a b c z : UInt8) (text : Bytes) (ha : 48 ≤ a ∧ a ≤ 57) (hb : 48 ≤ b ∧ b ≤ 57) (hc : 48 ≤ c ∧ c ≤ 57)
    (hz : z ≠ 32 ∧ z ≠ 9) :
    parseError (a :: b :: c :: 32 :: (text ++ [z])) =
      if 53 ≤ a then .final (a :: b :: c :: 32 :: (text ++ [z])) else .failed txtRetry := by
  have hne : ∀ x : UInt8, 48 ≤ x ∧ x ≤ 57 → x ≠ 32 ∧ x ≠ 9 := by
    intro x hx
    constructor <;> rintro rfl <;> revert hx <;> decide
  have e1 : trimBlank (a :: b :: c :: 32 :: (text ++ [z])) = a :: b :: c :: 32 :: (text ++ [z]) := by
    have ha' := hne a ha
    unfold trimBlank
    simp only
    rw [List.dropWhile_cons_of_neg (by simp [ha'.1, ha'.2])]
    have : (a :: b :: c :: 32 :: (text ++ [z])).reverse = z :: (a :: b :: c :: 32 :: text).reverse := by simp
    rw [this, List.dropWhile_cons_of_neg (by simp [hz.1, hz.2]), ← this, List.reverse_reverse]
  have e2 : (a :: b :: c :: 32 :: (text ++ [z])).takeWhile (· != 32) = [a, b, c] := by
    simp [(hne a ha).1, (hne b hb).1, (hne c hc).1]
  have e3 : atoi [a, b, c] = some (((a.toNat - 48) * 100 + (b.toNat - 48) * 10 + (c.toNat - 48) : Nat) : Int) := by
    have h43 : a ≠ 43 := by rintro rfl; revert ha; decide
    have h45 : a ≠ 45 := by rintro rfl; revert ha; decide
    have hd : atoiDigits [a, b, c] = some ((a.toNat - 48) * 100 + (b.toNat - 48) * 10 + (c.toNat - 48)) := by
      simp only [atoiDigits, List.foldl_cons, List.foldl_nil, Option.bind_some, ha, hb, hc, and_self, if_true]
      congr 1
      omega
    have hlt : (a.toNat - 48) * 100 + (b.toNat - 48) * 10 + (c.toNat - 48) < 2 ^ 63 := by
      have := ha.2; have := hb.2; have := hc.2
      rw [UInt8.le_iff_toNat_le] at *
      simp at *
      omega
    unfold atoi
    split
    · rename_i h; cases h; exact absurd rfl h43
    · rename_i h; cases h; exact absurd rfl h45
    · rw [hd, Option.bind_some, if_pos hlt]
  unfold parseError
  simp only [e1]
  rw [if_pos (by refine ⟨by simp, ?_⟩; simp [(hne a ha).1]), e2, e3]
  simp only
  have h1 := ha; have h2 := hb; have h3 := hc
  simp only [UInt8.le_iff_toNat_le] at h1 h2 h3 ⊢
  simp at h1 h2 h3
  by_cases h : 53 ≤ a.toNat
  · rw [if_pos (by omega), if_pos (by simpa using h)]
  · rw [if_neg (by omega), if_neg (by simpa using h)]

/-- A client that has a CA certificate never gives a mail to a server without TLS, nor if the
certificate cannot be read, nor if the TLS handshake fails. -/
theorem C29_tls_required (E : Env) (to_ smartHost ca : Bytes) (h : (sendMail E to_ smartHost (some ca)).2 = true) :
    E.starttls = true ∧ E.pem ca = true ∧ E.tls = none := by
  unfold sendMail at h
  split at h
  · cases h
  · split at h
    · cases h
    · cases hs : E.starttls <;> cases hp : E.pem ca <;> cases ht : E.tls <;> simp [tlsStep, hs, hp, ht] at h ⊢

/-- Non-vacuity: "550 no" is final, "450 no" is not. -/
example : parseError [53, 53, 48, 32, 110, 111] = .final [53, 53, 48, 32, 110, 111] ∧
    parseError [52, 53, 48, 32, 110, 111] = .failed txtRetry := by decide

/-- What one `Deliver` call did: the mail handed to SMTP, if any, whether the server
accepted it, and the error returned. -/
structure Did where
  handed : Option (Bytes × Bytes × Option Bytes)
  accepted : Bool
  err : Option Bytes
  deriving DecidableEq, Repr

/-- The object after `SendMail` in `Deliver` (send.go:80-95). -/
def afterSend (mo : Out) : Outcome → Out
  | .sent => { mo with resend := false, message := none, to_ := [], from_ := [], port := 0, smartHost := [], caCert := none, error := none }
  | .final last => { mo with resend := false, error := some last }
  | .failed e => { mo with error := some e }

/-- `Deliver` (send.go:70-101). -/
def deliver (E : Env) (mo : Out) : Out × Did :=
  if mo.resend then
    let r := sendMail E mo.to_ mo.smartHost mo.caCert
    let mo' := afterSend mo r.1
    (mo', ⟨some (mo.to_, mo.from_, mo.message), r.2, mo'.error⟩)
  else (mo, ⟨none, false, if mo.message = none then some txtAlreadySent else mo.error⟩)

/-- "nil" -/
def txtNil : Bytes := [110, 105, 108]

/-- `Marshal` (send.go:119-144). `none` is the nil result when a string is no UTF-8. -/
def Out.marshal (utf8 : Bytes → Bool) (mo : Out) : Option Bytes := do
  let t ← eStr utf8 mo.to_
  let f ← eStr utf8 mo.from_
  let h ← eStr utf8 mo.smartHost
  let e ← eStr utf8 (mo.error.getD txtNil)
  return tlv 48 (eBytes (mo.message.getD []) ++ (t ++ (f ++ (eBytes (mo.revokeID.getD []) ++ (eInt mo.port ++
    (h ++ (eBytes (mo.caCert.getD []) ++ (e ++ eBool mo.resend))))))))

/-- asn1.Unmarshal of the marshalled form: strings of bytes come back non-nil. The error
text is kept as it is here. -/
def Out.parse (utf8 : Bytes → Bool) (d : Bytes) : Option Out := do
  let (c, _) ← readTLV 48 d
  let (m, c) ← fBytes c
  let (t, c) ← fStr utf8 c
  let (f, c) ← fStr utf8 c
  let (r, c) ← fBytes c
  let (p, c) ← fInt64 c
  let (h, c) ← fStr utf8 c
  let (ca, c) ← fBytes c
  let (e, c) ← fStr utf8 c
  let (rs, _) ← fBool c
  return ⟨some m, t, f, some r, p, h, some ca, some e, rs⟩

/-- An asn1 error. -/
def txtAsn1 : Bytes := [97, 115, 110, 49]

/-- `Unmarshal` (send.go:146-168). When parsing fails Go keeps the fields read before the
failure; the model keeps none of them (Resend, the last field, is false in both cases). -/
def Out.unmarshal (utf8 : Bytes → Bool) (d : Bytes) : Out :=
  match Out.parse utf8 d with
  | none => ⟨none, [], [], none, 0, [], none, some txtAsn1, false⟩
  | some o => { o with error := if o.error = some [] ∨ o.error = some txtNil then none else o.error }

/-- Saving and loading a message: `mo.Marshal().Unmarshal()`. -/
def Out.cycle (utf8 : Bytes → Bool) (mo : Out) : Out := Out.unmarshal utf8 ((mo.marshal utf8).getD [])

/-! ### C29 -/

/-- What a message becomes by saving and loading: nil becomes empty. -/
def Out.stored (mo : Out) : Out :=
  ⟨some (mo.message.getD []), mo.to_, mo.from_, some (mo.revokeID.getD []), mo.port, mo.smartHost, some (mo.caCert.getD []),
   (if mo.error = some [] ∨ mo.error = some txtNil then none else mo.error), mo.resend⟩

theorem eStr_length {utf8 : Bytes → Bool} {s e : Bytes} (h : eStr utf8 s = some e) : s.length ≤ e.length := by
  unfold eStr at h
  split at h
  · cases h; have := tlv_length_ge 19 s; omega
  split at h
  · cases h; have := tlv_length_ge 12 s; omega
  · cases h

/-- C29: saving and loading keeps every field except that nil byte strings become empty
ones and errors with an empty text or the text "nil" disappear; for every message that can
be saved (see `C29_bad_text_lost`) in less than 2^31 bytes. -/
theorem C29_round_trip_partial (utf8 : Bytes → Bool) (mo : Out) (d : Bytes) (hm : mo.marshal utf8 = some d) (hp : I64 mo.port)
    (hl : d.length < 2 ^ 31) :
    Out.unmarshal utf8 d = mo.stored := by
  unfold Out.marshal at hm
  simp only [Option.bind_eq_bind, Option.bind_eq_some_iff, Option.pure_def, Option.some.injEq] at hm
  obtain ⟨t, ht, f, hf, h, hh, e, he, rfl⟩ := hm
  have l1 := eStr_length ht
  have l2 := eStr_length hf
  have l3 := eStr_length hh
  have l4 := eStr_length he
  have hc := tlv_length_ge 48 (eBytes (mo.message.getD []) ++ (t ++ (f ++ (eBytes (mo.revokeID.getD []) ++ (eInt mo.port ++
    (h ++ (eBytes (mo.caCert.getD []) ++ (e ++ eBool mo.resend))))))))
  have t1 := tlv_length_ge 4 (mo.message.getD [])
  have t2 := tlv_length_ge 4 (mo.revokeID.getD [])
  have t3 := tlv_length_ge 4 (mo.caCert.getD [])
  simp only [List.length_append, eBytes] at hc hl
  have hpar : Out.parse utf8 (tlv 48 (eBytes (mo.message.getD []) ++ (t ++ (f ++ (eBytes (mo.revokeID.getD []) ++ (eInt mo.port ++
    (h ++ (eBytes (mo.caCert.getD []) ++ (e ++ eBool mo.resend))))))))) =
      some ⟨some (mo.message.getD []), mo.to_, mo.from_, some (mo.revokeID.getD []), mo.port, mo.smartHost, some (mo.caCert.getD []),
        some (mo.error.getD txtNil), mo.resend⟩ := by
    unfold Out.parse
    have e0 := readTLV_tlv 48 (eBytes (mo.message.getD []) ++ (t ++ (f ++ (eBytes (mo.revokeID.getD []) ++ (eInt mo.port ++
      (h ++ (eBytes (mo.caCert.getD []) ++ (e ++ eBool mo.resend)))))))) (by simp only [List.length_append, eBytes]; omega) []
    rw [List.append_nil] at e0
    rw [e0]
    have eb := fBool_eBool mo.resend []
    rw [List.append_nil] at eb
    simp only [Option.bind_eq_bind, Option.bind_some, fInt64_eInt _ hp, fBytes_eBytes (mo.message.getD []) (by omega),
      fBytes_eBytes (mo.revokeID.getD []) (by omega), fBytes_eBytes (mo.caCert.getD []) (by omega),
      fStr_eStr utf8 _ _ ht (by omega), fStr_eStr utf8 _ _ hf (by omega), fStr_eStr utf8 _ _ hh (by omega),
      fStr_eStr utf8 _ _ he (by omega), eb]
    rfl
  unfold Out.unmarshal
  rw [hpar]
  unfold Out.stored
  cases he : mo.error with
  | none => simp [txtNil]
  | some x => simp

/-- What a user does with a message: deliver it, or save and load it. -/
inductive DOp where
  | deliver (E : Env)
  | cycle

/-- Object and log. -/
def dstep (utf8 : Bytes → Bool) (x : Out × List Did) : DOp → Out × List Did
  | .deliver E => ((deliver E x.1).1, x.2 ++ [(deliver E x.1).2])
  | .cycle => (x.1.cycle utf8, x.2)

def drun (utf8 : Bytes → Bool) (mo : Out) (ops : List DOp) : Out × List Did := ops.foldl (dstep utf8) (mo, [])

/-- The saved forms in a history have less than 2^31 bytes and ports are int64. -/
def FitsD (utf8 : Bytes → Bool) (mo : Out) : List DOp → Prop
  | [] => True
  | .deliver E :: ops => FitsD utf8 (deliver E mo).1 ops
  | .cycle :: ops => I64 mo.port ∧ (∀ d, mo.marshal utf8 = some d → d.length < 2 ^ 31) ∧ FitsD utf8 (mo.cycle utf8) ops

/-- Saving and loading either keeps the stored form or loses the message. -/
theorem cycle_cases (utf8 : Bytes → Bool) (mo : Out) (hp : I64 mo.port) (hl : ∀ d, mo.marshal utf8 = some d → d.length < 2 ^ 31) :
    mo.cycle utf8 = mo.stored ∨ (mo.marshal utf8 = none ∧ mo.cycle utf8 = ⟨none, [], [], none, 0, [], none, some txtAsn1, false⟩) := by
  unfold Out.cycle
  cases hm : mo.marshal utf8 with
  | none => exact Or.inr ⟨rfl, rfl⟩
  | some d => exact Or.inl (C29_round_trip_partial utf8 mo d hm hp (hl d hm))

/-- The log of a history that starts with a log. -/
theorem foldl_dstep (utf8 : Bytes → Bool) (ops : List DOp) (mo : Out) (l : List Did) :
    ops.foldl (dstep utf8) (mo, l) = ((drun utf8 mo ops).1, l ++ (drun utf8 mo ops).2) := by
  induction ops generalizing mo l with
  | nil => simp [drun]
  | cons op ops ih =>
    unfold drun
    rw [List.foldl_cons, List.foldl_cons]
    cases op with
    | deliver E =>
      rw [dstep, dstep, ih, ih (l := [] ++ _)]
      simp
    | cycle => rw [dstep, dstep, ih]; rfl

theorem drun_deliver (utf8 : Bytes → Bool) (E : Env) (mo : Out) (ops : List DOp) :
    (drun utf8 mo (.deliver E :: ops)).2 = (deliver E mo).2 :: (drun utf8 (deliver E mo).1 ops).2 := by
  unfold drun
  rw [List.foldl_cons, dstep, foldl_dstep]
  rfl

theorem drun_cycle (utf8 : Bytes → Bool) (mo : Out) (ops : List DOp) :
    (drun utf8 mo (.cycle :: ops)).2 = (drun utf8 (mo.cycle utf8) ops).2 := by
  unfold drun
  rw [List.foldl_cons, dstep]

theorem deliver_done {E : Env} {mo : Out} (h : mo.resend = false) : (deliver E mo).1 = mo ∧ (deliver E mo).2.handed = none ∧
    (deliver E mo).2.accepted = false := by
  unfold deliver
  rw [if_neg (by simp [h])]
  exact ⟨rfl, rfl, rfl⟩

/-- C29: a message whose Resend flag is off is never handed to SMTP, in every sequence of
deliveries, savings and loadings. -/
theorem C29_no_resend (utf8 : Bytes → Bool) (ops : List DOp) (mo : Out) (hf : FitsD utf8 mo ops) (h : mo.resend = false) :
    ∀ d ∈ (drun utf8 mo ops).2, d.handed = none ∧ d.accepted = false := by
  induction ops generalizing mo with
  | nil => intro d hd; cases hd
  | cons op ops ih =>
    cases op with
    | deliver E =>
      rw [drun_deliver]
      obtain ⟨h1, h2, h3⟩ := deliver_done (E := E) h
      intro d hd
      rcases List.mem_cons.mp hd with rfl | hd
      · exact ⟨h2, h3⟩
      · rw [h1] at hd
        have hf' : FitsD utf8 (deliver E mo).1 ops := hf
        rw [h1] at hf'
        exact ih mo hf' h d hd
    | cycle =>
      rw [drun_cycle]
      obtain ⟨f1, f2, f3⟩ := hf
      refine ih _ f3 ?_
      rcases cycle_cases utf8 mo f1 f2 with e | ⟨-, e⟩ <;> rw [e]
      exact h

theorem parseError_ne_sent (e : Bytes) : parseError e ≠ .sent := by
  unfold parseError; simp only; split
  · split
    · split <;> simp
    · simp
  · simp

theorem tlsStep_ne_sent (E : Env) (ca : Option Bytes) (o : Outcome) (h : tlsStep E ca = some o) : o ≠ .sent := by
  unfold tlsStep at h
  split at h
  · split at h
    · cases h; simp
    · rw [Option.map_eq_some_iff] at h
      obtain ⟨e, -, rfl⟩ := h
      exact parseError_ne_sent e
  · split at h <;> cases h
    simp

/-- `SendMail` fails before the mail is accepted, or it is accepted and Quit decides. -/
theorem sendMail_cases (E : Env) (t h : Bytes) (ca : Option Bytes) :
    (∃ o, sendMail E t h ca = (o, false) ∧ o ≠ .sent) ∨ (∃ e, E.quitE = some e ∧ sendMail E t h ca = (parseError e, true)) ∨
    (E.quitE = none ∧ sendMail E t h ca = (.sent, true)) := by
  unfold sendMail
  split
  · exact Or.inl ⟨_, rfl, by simp⟩
  split
  · exact Or.inl ⟨_, rfl, by simp⟩
  split
  · rename_i o ho
    exact Or.inl ⟨o, rfl, tlsStep_ne_sent E ca o ho⟩
  · unfold finishMail
    split
    · exact Or.inl ⟨_, rfl, parseError_ne_sent _⟩
    · split
      · rename_i e he; exact Or.inr (Or.inl ⟨e, he, rfl⟩)
      · rename_i he; exact Or.inr (Or.inr ⟨he, rfl⟩)

/-- C29: a delivery that reports success turns the Resend flag off, and so does a final
error; another error leaves the message as it was, to be sent again. -/
theorem C29_outcomes (E : Env) (mo : Out) (h : mo.resend = true) :
    (deliver E mo).2.handed = some (mo.to_, mo.from_, mo.message) ∧
    ((deliver E mo).2.err = none → (deliver E mo).1.resend = false ∧ (deliver E mo).2.accepted = true) ∧
    ((deliver E mo).1.resend = true → ∃ e, (deliver E mo).2.err = some e ∧ (deliver E mo).1 = { mo with error := some e }) := by
  unfold deliver
  rw [if_pos h]
  refine ⟨rfl, fun he => ?_, fun hr => ?_⟩
  · simp only at he ⊢
    cases ho : (sendMail E mo.to_ mo.smartHost mo.caCert).1 with
    | sent =>
      refine ⟨rfl, ?_⟩
      rcases sendMail_cases E mo.to_ mo.smartHost mo.caCert with ⟨o, h1, h2⟩ | ⟨e, -, h1⟩ | ⟨-, h1⟩
      · rw [h1] at ho; exact absurd ho h2
      · rw [h1] at ho; exact absurd ho (parseError_ne_sent e)
      · rw [h1]
    | final l => rw [ho] at he; simp [afterSend] at he
    | failed e => rw [ho] at he; simp [afterSend] at he
  · simp only at hr ⊢
    cases ho : (sendMail E mo.to_ mo.smartHost mo.caCert).1 with
    | sent => rw [ho] at hr; simp [afterSend] at hr
    | final l => rw [ho] at hr; simp [afterSend] at hr
    | failed e => exact ⟨e, rfl, rfl⟩

/-- C29: after a success, the same object answers every further delivery with
ErrAlreadySent. -/
theorem C29_already_sent (E E' : Env) (mo : Out) (h : mo.resend = true) (hs : (deliver E mo).2.err = none) :
    (deliver E' (deliver E mo).1).2 = ⟨none, false, some txtAlreadySent⟩ := by
  have hm : (deliver E mo).1.message = none ∧ (deliver E mo).1.resend = false := by
    unfold deliver at hs ⊢
    rw [if_pos h] at hs ⊢
    simp only at hs ⊢
    cases ho : (sendMail E mo.to_ mo.smartHost mo.caCert).1 with
    | sent => exact ⟨rfl, rfl⟩
    | final l => rw [ho] at hs; simp [afterSend] at hs
    | failed e => rw [ho] at hs; simp [afterSend] at hs
  unfold deliver
  rw [if_neg (by rw [show (if mo.resend = true then _ else _ : Out × Did) = deliver E mo from rfl]; simp [hm.2])]
  rw [show (if mo.resend = true then _ else _ : Out × Did) = deliver E mo from rfl, if_pos hm.1]

/-- C29: in every sequence of deliveries, savings and loadings, only the original mail is
handed to SMTP, with the original sender and receiver. -/
theorem C29_hands_original (utf8 : Bytes → Bool) (ops : List DOp) (mo : Out) (hf : FitsD utf8 mo ops) (m : Bytes)
    (hm : mo.resend = true → mo.message = some m) :
    ∀ d ∈ (drun utf8 mo ops).2, d.handed = none ∨ d.handed = some (mo.to_, mo.from_, some m) := by
  have key : ∀ (t f : Bytes) (ops : List DOp) (mo : Out), FitsD utf8 mo ops →
      (mo.resend = true → mo.message = some m ∧ mo.to_ = t ∧ mo.from_ = f) →
      ∀ d ∈ (drun utf8 mo ops).2, d.handed = none ∨ d.handed = some (t, f, some m) := by
    intro t f ops
    induction ops with
    | nil => intro mo _ _ d hd; cases hd
    | cons op ops ih =>
      intro mo hf hm
      cases op with
      | deliver E =>
        rw [drun_deliver]
        have hf' : FitsD utf8 (deliver E mo).1 ops := hf
        by_cases hr : mo.resend = true
        · obtain ⟨o1, -, o3⟩ := C29_outcomes E mo hr
          obtain ⟨m1, m2, m3⟩ := hm hr
          intro d hd
          rcases List.mem_cons.mp hd with rfl | hd
          · right; rw [o1, m1, m2, m3]
          · refine ih _ hf' ?_ d hd
            intro hr'
            obtain ⟨e, -, he⟩ := o3 hr'
            rw [he]
            exact ⟨m1, m2, m3⟩
        · have hr : mo.resend = false := by simpa using hr
          obtain ⟨d1, d2, -⟩ := deliver_done (E := E) hr
          intro d hd
          rcases List.mem_cons.mp hd with rfl | hd
          · exact Or.inl d2
          · rw [d1] at hd hf'
            exact ih mo hf' hm d hd
      | cycle =>
        rw [drun_cycle]
        obtain ⟨f1, f2, f3⟩ := hf
        refine ih _ f3 ?_
        rcases cycle_cases utf8 mo f1 f2 with e | ⟨-, e⟩ <;> rw [e]
        · intro hr
          obtain ⟨m1, m2, m3⟩ := hm hr
          refine ⟨?_, m2, m3⟩
          simp [Out.stored, m1]
        · intro hr; cases hr
  exact key mo.to_ mo.from_ ops mo hf fun hr => ⟨hm hr, rfl, rfl⟩

/-- Acceptance without success comes from a failing Quit. -/
theorem accepted_quit {E : Env} {mo : Out} (hq : E.quitE = none) (ha : (deliver E mo).2.accepted = true) :
    (deliver E mo).1.resend = false := by
  unfold deliver at ha ⊢
  split at ha
  · rename_i hr
    rw [if_pos hr]
    simp only at ha ⊢
    rcases sendMail_cases E mo.to_ mo.smartHost mo.caCert with ⟨o, h1, h2⟩ | ⟨e, he, h1⟩ | ⟨-, h1⟩
    · rw [h1] at ha; cases ha
    · rw [hq] at he; cases he
    · rw [h1]; rfl
  · simp at ha

/-- C29, partial: if saying goodbye never fails after a mail was accepted, servers accept
the mail at most once, in every sequence of deliveries, savings and loadings. Missing: a
failing Quit, see `C29_duplicate`. -/
theorem C29_at_most_once_partial (utf8 : Bytes → Bool) (ops : List DOp) (mo : Out) (hf : FitsD utf8 mo ops)
    (hq : ∀ E, DOp.deliver E ∈ ops → E.quitE = none) :
    ((drun utf8 mo ops).2.filter (·.accepted)).length ≤ 1 := by
  induction ops generalizing mo with
  | nil => simp [drun]
  | cons op ops ih =>
    cases op with
    | deliver E =>
      rw [drun_deliver]
      have hf' : FitsD utf8 (deliver E mo).1 ops := hf
      by_cases ha : (deliver E mo).2.accepted = true
      · have hr := accepted_quit (hq E (List.mem_cons_self ..)) ha
        have hn := C29_no_resend utf8 ops _ hf' hr
        have : (drun utf8 (deliver E mo).1 ops).2.filter (·.accepted) = [] := by
          rw [List.filter_eq_nil_iff]
          intro d hd
          simp [(hn d hd).2]
        simp [ha, this]
      · have ha' : (deliver E mo).2.accepted = false := by simpa using ha
        rw [List.filter_cons, ha']
        exact ih _ hf' (fun E hE => hq E (List.mem_cons_of_mem _ hE))
    | cycle =>
      rw [drun_cycle]
      exact ih _ hf.2.2 (fun E hE => hq E (List.mem_cons_of_mem _ hE))

/-- A server that accepts everything, and then answers Quit with the given error. -/
def okEnv (q : Option Bytes) : Env := ⟨fun _ => [104], none, true, fun _ => false, none, none, none, none, none, none, q⟩

/-- C29 is violated: when the server accepts the mail and the connection then breaks
before Quit is answered, the delivery is reported as failed with Resend set, and the next
delivery sends the accepted mail again. -/
theorem C29_duplicate (mo : Out) (hr : mo.resend = true) (hca : mo.caCert = none) :
    let d1 := deliver (okEnv (some [69, 79, 70])) mo
    let d2 := deliver (okEnv none) d1.1
    d1.2.accepted = true ∧ d1.2.err ≠ none ∧ d1.1.resend = true ∧ d2.2.accepted = true ∧ d2.2.handed = d1.2.handed := by
  have hsend : ∀ (o : Out) q, o.caCert = none → sendMail (okEnv q) o.to_ o.smartHost o.caCert =
      (match q with | some e => (parseError e, true) | none => (.sent, true)) := by
    intro o q ho
    unfold sendMail
    rw [if_neg (by unfold mailHost; split <;> simp_all [okEnv]), if_neg (by simp [okEnv]), ho]
    cases q <;> rfl
  have e1 : deliver (okEnv (some [69, 79, 70])) mo = ({ mo with error := some [69, 79, 70] }, ⟨some (mo.to_, mo.from_, mo.message), true, some [69, 79, 70]⟩) := by
    unfold deliver
    rw [if_pos hr, hsend mo _ hca]
    rfl
  simp only [e1]
  have e2 : (deliver (okEnv none) { mo with error := some [69, 79, 70] }).2 = ⟨some (mo.to_, mo.from_, mo.message), true, none⟩ := by
    unfold deliver
    rw [if_pos hr, hsend _ _ hca]
    rfl
  rw [e2]
  exact ⟨trivial, by simp, hr, rfl, rfl⟩

/-- C29 is violated: an SMTP error text that is no UTF-8, which any server can send, makes
saving fail, and the message is lost although it could have been sent again. -/
theorem C29_bad_text_lost (utf8 : Bytes → Bool) (mo : Out) (e : Bytes) (he : mo.error = some e) (hu : utf8 e = false)
    (hp : e.all printable = false) :
    mo.marshal utf8 = none ∧ (mo.cycle utf8).resend = false ∧ (mo.cycle utf8).message = none := by
  have hs : eStr utf8 e = none := by simp [eStr, hu, hp]
  have hm : mo.marshal utf8 = none := by
    unfold Out.marshal
    rw [he, Option.getD_some, hs]
    cases eStr utf8 mo.to_ <;> cases eStr utf8 mo.from_ <;> cases eStr utf8 mo.smartHost <;> rfl
  unfold Out.cycle
  rw [hm]
  exact ⟨rfl, rfl, rfl⟩

/-- C29 is violated: a message without CA certificate, saved and loaded, as the documented
loop does, has an empty one; every delivery that reaches a server then fails for good. -/
theorem C29_no_ca_cert_lost (utf8 : Bytes → Bool) (mo : Out) (d : Bytes) (hm : mo.marshal utf8 = some d) (hp : I64 mo.port)
    (hl : d.length < 2 ^ 31) (hr : mo.resend = true) (hca : mo.caCert = none) (E : Env) (hpem : E.pem [] = false)
    (hd : E.dial = none) (hh : mo.smartHost ≠ []) :
    let r := deliver E (Out.unmarshal utf8 d)
    r.2.accepted = false ∧ r.2.err = some txtNoTLS ∧ r.1.resend = false := by
  rw [C29_round_trip_partial utf8 mo d hm hp hl]
  have hs : sendMail E mo.stored.to_ mo.stored.smartHost mo.stored.caCert = (.final txtNoTLS, false) := by
    unfold sendMail
    rw [if_neg (by simp [Out.stored, mailHost, hh]), if_neg (by simp [hd])]
    have : tlsStep E mo.stored.caCert = some (.final txtNoTLS) := by
      unfold tlsStep
      simp [Out.stored, hca, hpem]
    rw [this]
  unfold deliver
  rw [if_pos (by simpa [Out.stored] using hr), hs]
  exact ⟨rfl, rfl, rfl⟩

/-- C29: the object of a message that was sent, saved and loaded reports success instead
of ErrAlreadySent. -/
theorem C29_sent_then_loaded (E E' : Env) (utf8 : Bytes → Bool) (mo : Out) (h : mo.resend = true) (hs : (deliver E mo).2.err = none)
    (d : Bytes) (hm : (deliver E mo).1.marshal utf8 = some d) (hl : d.length < 2 ^ 31) :
    (deliver E' (Out.unmarshal utf8 d)).2 = ⟨none, false, none⟩ := by
  have hd : ∃ r, (deliver E mo).1 = ⟨none, [], [], r, 0, [], none, none, false⟩ := by
    unfold deliver at hs ⊢
    rw [if_pos h] at hs ⊢
    simp only at hs ⊢
    cases ho : (sendMail E mo.to_ mo.smartHost mo.caCert).1 with
    | sent => exact ⟨_, rfl⟩
    | final l => rw [ho] at hs; simp [afterSend] at hs
    | failed e => rw [ho] at hs; simp [afterSend] at hs
  obtain ⟨r, hr⟩ := hd
  rw [hr] at hm
  rw [C29_round_trip_partial utf8 _ d hm (by unfold I64; simp only; omega) hl]
  rfl

theorem eStr_length_le {utf8 : Bytes → Bool} {s e : Bytes} (h : eStr utf8 s = some e) (hl : s.length < 2 ^ 31) : e.length ≤ s.length + 6 := by
  unfold eStr at h
  split at h
  · cases h; exact (tlv_length 19 s hl).1
  split at h
  · cases h; exact (tlv_length 12 s hl).1
  · cases h

/-- The saved form of a message is its fields and less than 100 bytes. -/
theorem marshal_length (utf8 : Bytes → Bool) (mo : Out) (d : Bytes) (hm : mo.marshal utf8 = some d) (hp : I64 mo.port)
    (hl : (mo.message.getD []).length + mo.to_.length + mo.from_.length + (mo.revokeID.getD []).length + mo.smartHost.length +
      (mo.caCert.getD []).length + (mo.error.getD txtNil).length < 2 ^ 30) : d.length < 2 ^ 31 := by
  unfold Out.marshal at hm
  simp only [Option.bind_eq_bind, Option.bind_eq_some_iff, Option.pure_def, Option.some.injEq] at hm
  obtain ⟨t, ht, f, hf, h, hh, e, he, rfl⟩ := hm
  have l1 := eStr_length_le ht (by omega)
  have l2 := eStr_length_le hf (by omega)
  have l3 := eStr_length_le hh (by omega)
  have l4 := eStr_length_le he (by omega)
  have t1 := tlv_length 4 (mo.message.getD []) (by omega)
  have t2 := tlv_length 4 (mo.revokeID.getD []) (by omega)
  have t3 := tlv_length 4 (mo.caCert.getD []) (by omega)
  have i1 := encInt_length 8 mo.port (by omega) (by unfold I64 at hp; omega)
  have t4 := tlv_length 2 (encInt mo.port) (by omega)
  have t5 := tlv_length 1 [if mo.resend then 255 else 0] (by simp)
  have hc := tlv_length 48 (eBytes (mo.message.getD []) ++ (t ++ (f ++ (eBytes (mo.revokeID.getD []) ++ (eInt mo.port ++
    (h ++ (eBytes (mo.caCert.getD []) ++ (e ++ eBool mo.resend)))))))) (by
      simp only [List.length_append, eBytes, eInt, eBool]
      simp only [List.length_singleton] at t5
      omega)
  simp only [List.length_append, eBytes, eInt, eBool] at hc ⊢
  simp only [List.length_singleton] at t5
  omega

/-- Non-vacuity: a message that can be saved, and a history with a failed delivery, a
successful one, and saving. -/
def toyOut : Out := ⟨some [1, 2], [97], [98], some [3], 25, [104], none, none, true⟩
example : (toyOut.marshal fun _ => true).isSome = true := rfl
example : FitsD (fun _ => true) toyOut [.cycle, .deliver (okEnv (some [69]))] := by
  have hp : I64 toyOut.port := by unfold I64 toyOut; simp only; omega
  exact ⟨hp, fun d hd => marshal_length _ _ d hd hp (by decide), trivial⟩
example : (deliver (okEnv none) toyOut).2.err = none := by decide
example : (deliver (okEnv none) toyOut).2 = ⟨some ([97], [98], some [1, 2]), true, none⟩ := by decide


/-! ### C30 account calls (mix/client/accountrpc.go, receive.go; serviceguard walletauth) -/

/-- What one remote call answers: a result, a replay error with the last counter the
server has seen, or another error. -/
inductive Ans (α : Type) where
  | ok (a : α)
  | replay (last : UInt64)
  | err (e : Bytes)
  deriving DecidableEq, Repr

/-- The `CallLoop` of the account functions (accountrpc.go:28-46 and alike): `call n c` is
the answer to the n-th call, made with counter `c`; `i` retries are left. The result, and
the counters used. -/
def callLoop {α : Type} (call : Nat → UInt64 → Ans α) : Nat → Nat → UInt64 → Ans α × List UInt64
  | 0, n, last => (call n (last + 1), [last + 1])
  | i + 1, n, last =>
    match call n (last + 1) with
    | .replay l =>
      let r := callLoop call i (n + 1) l
      (r.1, (last + 1) :: r.2)
    | a => (a, [last + 1])

/-- `PayAccount`, `DeleteAccount`, `AccountStat`, `ListMessages`, `FetchMessage`: the loop
with three retries, starting from the time in nanoseconds. -/
def accountCall {α : Type} (call : Nat → UInt64 → Ans α) (nano : UInt64) : Ans α × List UInt64 := callLoop call 3 0 nano

theorem callLoop_spec {α : Type} (call : Nat → UInt64 → Ans α) (i n : Nat) (last : UInt64) :
    let r := callLoop call i n last
    1 ≤ r.2.length ∧ r.2.length ≤ i + 1 ∧ r.2[0]? = some (last + 1) ∧
    (∀ k c, r.2[k]? = some c → k + 1 < r.2.length → ∃ l, call (n + k) c = .replay l ∧ r.2[k + 1]? = some (l + 1)) ∧
    (∃ c, r.2[r.2.length - 1]? = some c ∧ r.1 = call (n + (r.2.length - 1)) c) ∧
    (r.2.length < i + 1 → ∀ l, r.1 ≠ .replay l) := by
  induction i generalizing n last with
  | zero =>
    refine ⟨by simp [callLoop], by simp [callLoop], rfl, ?_, ⟨_, rfl, rfl⟩, by simp [callLoop]⟩
    intro k c _ hk
    simp [callLoop] at hk
  | succ i ih =>
    unfold callLoop
    cases hc : call n (last + 1) with
    | ok a =>
      refine ⟨by simp, by simp, rfl, ?_, ⟨_, rfl, hc.symm⟩, by simp⟩
      intro k c _ hk
      simp at hk
    | err a =>
      refine ⟨by simp, by simp, rfl, ?_, ⟨_, rfl, hc.symm⟩, by simp⟩
      intro k c _ hk
      simp at hk
    | replay l =>
      obtain ⟨h1, h2, h3, h4, ⟨c', h5, h6⟩, h7⟩ := ih (n + 1) l
      simp only
      generalize callLoop call i (n + 1) l = r at *
      refine ⟨by simp, by simp; omega, rfl, ?_, ⟨c', ?_, ?_⟩, ?_⟩
      · intro k c hk hlt
        cases k with
        | zero =>
          simp only [List.getElem?_cons_zero, Option.some.injEq] at hk
          subst hk
          exact ⟨l, hc, by simpa using h3⟩
        | succ k =>
          simp only [List.getElem?_cons_succ] at hk
          simp only [List.length_cons] at hlt
          obtain ⟨l', e1, e2⟩ := h4 k c hk (by omega)
          exact ⟨l', by rw [← e1]; congr 1; omega, by simpa using e2⟩
      · simp only [List.length_cons, Nat.add_sub_cancel]
        obtain ⟨m, hm⟩ : ∃ m, r.2.length = m + 1 := ⟨r.2.length - 1, by omega⟩
        rw [hm] at h5 ⊢
        simpa using h5
      · simp only [List.length_cons, Nat.add_sub_cancel]
        rw [h6]
        congr 1
        omega
      · intro hlt
        simp only [List.length_cons] at hlt
        exact h7 (by omega)

/-- C30: whatever the server answers, an account operation makes between one and four
calls. The first uses the time plus one as counter; every later call follows a replay
error and uses the counter reported there plus one; the answer to the last call is the
result, and it is a replay error only after four calls. -/
theorem C30_bounded_calls {α : Type} (call : Nat → UInt64 → Ans α) (nano : UInt64) :
    let r := accountCall call nano
    1 ≤ r.2.length ∧ r.2.length ≤ 4 ∧ r.2[0]? = some (nano + 1) ∧
    (∀ k c, r.2[k]? = some c → k + 1 < r.2.length → ∃ l, call k c = .replay l ∧ r.2[k + 1]? = some (l + 1)) ∧
    (∃ c, r.2[r.2.length - 1]? = some c ∧ r.1 = call (r.2.length - 1) c) ∧
    (r.2.length < 4 → ∀ l, r.1 ≠ .replay l) := by
  have := callLoop_spec call 3 0 nano
  simpa [accountCall] using this

/-- C30: a success is the success of the last call, and no call before it succeeded. -/
theorem C30_first_success {α : Type} (call : Nat → UInt64 → Ans α) (nano : UInt64) (k : Nat) (c : UInt64) (a : α)
    (hk : (accountCall call nano).2[k]? = some c) (ha : call k c = .ok a) :
    (accountCall call nano).1 = .ok a ∧ (accountCall call nano).2.length = k + 1 := by
  obtain ⟨-, -, -, h4, ⟨c', h5, h6⟩, -⟩ := C30_bounded_calls call nano
  have hlt := (List.getElem?_eq_some_iff.mp hk).1
  by_cases hl : k + 1 < (accountCall call nano).2.length
  · obtain ⟨l, e, -⟩ := h4 k c hk hl
    rw [ha] at e; cases e
  · have e : (accountCall call nano).2.length - 1 = k := by omega
    rw [e] at h5 h6
    rw [hk] at h5
    cases h5
    exact ⟨by rw [h6, ha], by omega⟩

/-- A server that keeps the last counter it has seen and refuses counters that are not
larger, and nobody else uses the account: it refuses the first call only if the client's
clock is behind, and then accepts the second. -/
def honest (seen : UInt64) : Nat → UInt64 → Ans UInt64 := fun _ c => if seen < c then .ok c else .replay seen

/-- C30: with a server that refuses replays and reports its counter, an operation succeeds
after at most two calls, unless the counter is at its end. -/
theorem C30_honest_server (seen nano : UInt64) (h : seen ≠ 18446744073709551615) :
    ∃ c, (accountCall (honest seen) nano).1 = .ok c ∧ (accountCall (honest seen) nano).2.length ≤ 2 ∧ seen < c := by
  have hs : seen < seen + 1 := by
    rw [UInt64.lt_iff_toNat_lt, UInt64.toNat_add]
    have : seen.toNat ≠ 18446744073709551615 := fun hc => h (UInt64.toNat.inj hc)
    have := seen.toNat_lt
    simp
    omega
  unfold accountCall callLoop
  by_cases h1 : seen < nano + 1
  · exact ⟨nano + 1, by simp [honest, h1], by simp [honest, h1], h1⟩
  · refine ⟨seen + 1, ?_, ?_, hs⟩ <;> simp [honest, h1, callLoop, hs]

/-- "ErrReplay: " -/
def replayPrefix : Bytes := [69, 114, 114, 82, 101, 112, 108, 97, 121, 58, 32]

/-- `walletauth.IsReplay` (walletauth.go:82-93) on an error text: slicing a shorter text
panics. -/
def isReplay (e : Bytes) : Res Unit (Ans Unit) :=
  if e.length < 11 then .panic
  else if e.take 11 = replayPrefix then
    match atoi (e.drop 11) with
    | some n => .ok (.replay (UInt64.ofInt n))
    | none => .ok (.err e)
  else .ok (.err e)

/-- `fetchmessage` on the body of the answer, up to reading the mail (receive.go:52-61);
`.ok none` means that the mail is read. -/
def fetchBody (body : Bytes) : Res Unit (Option (Ans Unit)) :=
  if body.length < 7 then .ok (some (.err []))
  else if body.take 6 = [69, 82, 82, 79, 82, 58] then isReplay (body.drop 7) >>= fun a => .ok (some a)
  else .ok none

/-- C30 is violated: every error of fewer than eleven bytes that an account server
reports crashes the client. -/
theorem C30_short_error_crashes (e : Bytes) : isReplay e = .panic ↔ e.length < 11 := by
  unfold isReplay
  split
  · simp [*]
  · rename_i h
    simp only [h, iff_false]
    split
    · split <;> simp
    · simp

/-- C30 is violated: answering a fetch with "ERROR:" and one to eleven bytes crashes the
client. -/
theorem C30_short_fetch_crashes (t : Bytes) (h1 : 1 ≤ t.length) (h2 : t.length ≤ 11) :
    fetchBody ([69, 82, 82, 79, 82, 58] ++ t) = .panic := by
  unfold fetchBody
  rw [if_neg (by simp; omega), if_pos (by simp)]
  have : isReplay (([69, 82, 82, 79, 82, 58] ++ t).drop 7) = .panic := by
    rw [C30_short_error_crashes]
    simp
    omega
  rw [this]
  rfl

/-- Non-vacuity: "ErrReplay: 41" is recognized. -/
example : isReplay (replayPrefix ++ [52, 49]) = .ok (.replay 41) := by decide
example : (accountCall (honest 100) 50).1 = .ok 101 := by decide

/-! ### C80 listing messages -/

/-- A hexadecimal digit. -/
def unhexDigit (c : UInt8) : Option Nat :=
  if 48 ≤ c ∧ c ≤ 57 then some (c.toNat - 48)
  else if 97 ≤ c ∧ c ≤ 102 then some (c.toNat - 87)
  else if 65 ≤ c ∧ c ≤ 70 then some (c.toNat - 55)
  else none

/-- `hex.DecodeString`. -/
def unhex : Bytes → Option Bytes
  | [] => some []
  | [_] => none
  | a :: b :: r => (unhexDigit a).bind fun x => (unhexDigit b).bind fun y => (unhex r).map (UInt8.ofNat (16 * x + y) :: ·)

/-- An element of "Messages" in the answer: the fields that have the right JSON type. The
times are the numbers after the conversion to int64. -/
structure JMsg where
  receive : Option Int
  nano : Option Int
  read : Option Int
  userKey : Option Bytes
  msgID : Option Bytes

/-- `MessageMeta` (accountrpc.go:189-194). -/
structure Meta where
  id : Bytes
  receive : Int
  nano : Int
  read : Int
  userKey : Bytes
  deriving DecidableEq, Repr

/-- What an element does to the loop (accountrpc.go:255-298). -/
inductive Elem where
  | good (m : Meta)
  /-- a field is missing or has another type: ErrProto -/
  | proto
  /-- a hexadecimal text does not decode: the error goes to a variable of the loop body -/
  | shadowed
  deriving DecidableEq, Repr

/-- Reading one element. -/
def readElem (j : JMsg) : Elem :=
  match j.receive, j.nano, j.read, j.userKey with
  | some a, some b, some c, some uk =>
    match unhex uk with
    | none => .shadowed
    | some uk =>
      match j.msgID with
      | none => .proto
      | some mi =>
        match unhex mi with
        | none => .shadowed
        | some mi => .good ⟨mi, a, b, c, fix32 uk⟩
  | _, _, _, _ => .proto

/-- The loop of `listMessages` (accountrpc.go:252-303); an element that is no JSON object
(`none`) panics in the type assertion. -/
def listLoop : List (Option JMsg) → List Meta → Res Unit (List Meta)
  | [], acc => .ok acc
  | none :: _, _ => .panic
  | some j :: r, acc =>
    match readElem j with
    | .good m => listLoop r (acc ++ [m])
    | .proto => .err ()
    | .shadowed => .ok acc

/-- `listMessages` on the array of the answer. -/
def listMessages (l : List (Option JMsg)) : Res Unit (List Meta) := listLoop l []

/-- `j` lists the message `m`: the specification of a well-formed element. -/
def Lists (j : JMsg) (m : Meta) : Prop :=
  j.receive = some m.receive ∧ j.nano = some m.nano ∧ j.read = some m.read ∧
  (∃ uk b, j.userKey = some uk ∧ unhex uk = some b ∧ m.userKey = fix32 b) ∧ ∃ mi, j.msgID = some mi ∧ unhex mi = some m.id

/-- The elements list the messages, in order. -/
inductive ListsAll : List (Option JMsg) → List Meta → Prop where
  | nil : ListsAll [] []
  | cons {j m l ms} : Lists j m → ListsAll l ms → ListsAll (some j :: l) (m :: ms)

theorem readElem_meta (j : JMsg) (m : Meta) : readElem j = .good m ↔ Lists j m := by
  unfold Lists
  constructor
  · intro h
    unfold readElem at h
    split at h
    · rename_i a b c uk h1 h2 h3 h4
      split at h
      · cases h
      · rename_i ukb hu
        split at h
        · cases h
        · rename_i mi hmi
          split at h
          · cases h
          · rename_i mib hm
            cases h
            exact ⟨h1, h2, h3, ⟨uk, ukb, h4, hu, rfl⟩, mi, hmi, hm⟩
    · cases h
  · rintro ⟨h1, h2, h3, ⟨uk, b, h4, h5, h6⟩, mi, h7, h8⟩
    unfold readElem
    rw [h1, h2, h3, h4]
    simp only [h5, h7, h8]
    rw [← h6]

theorem listLoop_ok (l : List (Option JMsg)) (ms : List Meta) (h : ListsAll l ms) (acc : List Meta)
    (r : List (Option JMsg)) : listLoop (l ++ r) acc = listLoop r (acc ++ ms) := by
  induction h generalizing acc with
  | nil => simp
  | cons hj _ ih =>
    rw [List.cons_append, listLoop, (readElem_meta _ _).mpr hj]
    simp only
    rw [ih]
    simp

/-- C80: if all elements are well formed, all messages are listed, in order. -/
theorem C80_all_listed (l : List (Option JMsg)) (ms : List Meta) (h : ListsAll l ms) :
    listMessages l = .ok ms := by
  have := listLoop_ok l ms h [] []
  simpa [listMessages, listLoop] using this

theorem listLoop_prefix (l : List (Option JMsg)) (acc ms : List Meta) (h : listLoop l acc = .ok ms) :
    ∃ n new, ms = acc ++ new ∧ ListsAll (l.take n) new := by
  induction l generalizing acc with
  | nil =>
    cases h
    exact ⟨0, [], by simp, ListsAll.nil⟩
  | cons e l ih =>
    cases e with
    | none => cases h
    | some j =>
      rw [listLoop] at h
      cases hj : readElem j with
      | good m =>
        rw [hj] at h
        obtain ⟨n, new, h1, h2⟩ := ih _ h
        exact ⟨n + 1, m :: new, by simp [h1], ListsAll.cons ((readElem_meta j m).mp hj) h2⟩
      | proto => rw [hj] at h; cases h
      | shadowed =>
        rw [hj] at h
        cases h
        exact ⟨0, [], by simp, ListsAll.nil⟩

/-- C80, partial: what is listed is a prefix of what the server sent. Missing: that it is
everything, see `C80_silently_truncated`. -/
theorem C80_prefix_partial (l : List (Option JMsg)) (ms : List Meta) (h : listMessages l = .ok ms) :
    ∃ n, ListsAll (l.take n) ms := by
  obtain ⟨n, new, h1, h2⟩ := listLoop_prefix l [] ms h
  rw [List.nil_append] at h1
  subst h1
  exact ⟨n, h2⟩

/-- C80 is violated: if the ID of a message does not decode, it and all messages after it
are dropped, and no error is reported. -/
theorem C80_silently_truncated (l : List (Option JMsg)) (ms : List Meta) (h : ListsAll l ms)
    (j : JMsg) (m : Meta) (uk mi b : Bytes) (hj : j = ⟨some m.receive, some m.nano, some m.read, some uk, some mi⟩) (hu : unhex uk = some b)
    (hm : unhex mi = none) (rest : List (Option JMsg)) :
    listMessages (l ++ some j :: rest) = .ok ms := by
  unfold listMessages
  rw [listLoop_ok l ms h, listLoop]
  have : readElem j = .shadowed := by
    subst hj
    simp [readElem, hu, hm]
  rw [this]
  rfl

/-- C80 is violated: an element that is no object crashes the client. -/
theorem C80_not_an_object (l : List (Option JMsg)) (ms : List Meta) (h : ListsAll l ms)
    (rest : List (Option JMsg)) : listMessages (l ++ none :: rest) = .panic := by
  unfold listMessages
  rw [listLoop_ok l ms h, listLoop]

/-- Non-vacuity: a listed message, "0a" for user "ff". -/
example : Lists ⟨some 5, some 6, some 7, some [102, 102], some [48, 97]⟩ ⟨[10], 5, 6, 7, fix32 [255]⟩ :=
  ⟨rfl, rfl, rfl, ⟨_, [255], rfl, by decide, rfl⟩, _, rfl, by decide⟩
example : unhex [48] = none ∧ unhex [120, 121] = none := by decide

end Verif.Mix
